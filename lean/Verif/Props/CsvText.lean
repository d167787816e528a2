import Verif.Model.CsvText
import Verif.Props.Calendar

/-!
# C113: exported tables can be read back
-/

namespace Verif.Props
open Verif.Py Verif.Model

/-! ## Specification: splitting a text -/

/-- The pieces of a text between the places where `sep` occurs, found from left to right (as `str.split` does); `skip` characters belong to the last place. -/
def pieces (sep : List Char) : ℕ → List Char → List (List Char)
  | _, [] => [[]]
  | skip + 1, _ :: t => pieces sep skip t
  | 0, c :: t =>
    if sep.isPrefixOf (c :: t) then [] :: pieces sep (sep.length - 1) t
    else match pieces sep 0 t with
      | [] => [[c]]
      | p :: ps => (c :: p) :: ps

/-- `text.split(sep)`. -/
def splitText (sep text : List Char) : List (List Char) := pieces sep 0 text

/-! ## Joining and splitting -/

theorem pieces_ne (sep : List Char) : ∀ (l : List Char) (k : ℕ), pieces sep k l ≠ []
  | [], _ => by simp [pieces]
  | c :: t, k + 1 => by simp only [pieces]; exact pieces_ne sep t k
  | c :: t, 0 => by
    simp only [pieces]
    by_cases h : sep.isPrefixOf (c :: t)
    · rw [if_pos h]; simp
    · rw [if_neg h]
      cases pieces sep 0 t <;> simp

/-- Replacing is splitting and joining. -/
theorem replace_join (old new : List Char) : ∀ (l : List Char) (k : ℕ), replaceFrom old new k l = joinWith new (pieces old k l)
  | [], _ => by simp [replaceFrom, pieces, joinWith]
  | c :: t, k + 1 => by simp only [replaceFrom, pieces]; exact replace_join old new t k
  | c :: t, 0 => by
    simp only [replaceFrom, pieces]
    by_cases h : old.isPrefixOf (c :: t)
    · rw [if_pos h, if_pos h, replace_join old new t]
      cases hp : pieces old (old.length - 1) t with
      | nil => exact absurd hp (pieces_ne _ _ _)
      | cons p ps => simp [joinWith]
    · rw [if_neg h, if_neg h, replace_join old new t]
      cases hp : pieces old 0 t with
      | nil => exact absurd hp (pieces_ne _ _ _)
      | cons p ps =>
        cases ps with
        | nil => simp [joinWith]
        | cons q qs => simp [joinWith]

theorem skip_all (sep r : List Char) : ∀ (l : List Char), pieces sep l.length (l ++ r) = pieces sep 0 r
  | [] => rfl
  | c :: t => by
    simp only [List.length_cons, List.cons_append, pieces]
    exact skip_all sep r t

/-- In front of a place without the first character of the separator. -/
theorem split_cell (s : Char) (sep' cell r : List Char) (h : s ∉ cell) : pieces (s :: sep') 0 (cell ++ (s :: sep') ++ r) = cell :: pieces (s :: sep') 0 r := by
  induction cell with
  | nil =>
    simp only [List.nil_append, List.cons_append, pieces]
    rw [if_pos (by rw [List.isPrefixOf_iff_prefix]; exact ⟨r, by simp⟩)]
    simp only [List.length_cons, Nat.add_sub_cancel]
    rw [skip_all]
  | cons c t ih =>
    have hc : c ≠ s := fun e => h (by simp [e])
    simp only [List.cons_append, pieces]
    rw [if_neg (by simp [List.isPrefixOf, Ne.symm hc])]
    rw [ih (fun hm => h (List.mem_cons_of_mem _ hm))]

theorem split_last (s : Char) (sep' cell : List Char) (h : s ∉ cell) : pieces (s :: sep') 0 cell = [cell] := by
  induction cell with
  | nil => rfl
  | cons c t ih =>
    have hc : c ≠ s := fun e => h (by simp [e])
    simp only [pieces]
    rw [if_neg (by simp [List.isPrefixOf, Ne.symm hc]), ih (fun hm => h (List.mem_cons_of_mem _ hm))]

/-- Cells without the first character of the separator are found again. -/
theorem split_join (s : Char) (sep' : List Char) : ∀ (cells : List (List Char)), cells ≠ [] → (∀ c ∈ cells, s ∉ c) → splitText (s :: sep') (joinWith (s :: sep') cells) = cells
  | [], h, _ => absurd rfl h
  | [a], _, h => split_last s sep' a (h a (by simp))
  | a :: b :: t, _, h => by
    unfold splitText joinWith
    rw [split_cell s sep' a _ (h a (by simp))]
    have := split_join s sep' (b :: t) (by simp) (fun c hc => h c (List.mem_cons_of_mem _ hc))
    unfold splitText at this
    rw [this]

theorem join_append (sep : List Char) : ∀ (a b : List (List Char)), a ≠ [] → b ≠ [] → joinWith sep (a ++ b) = joinWith sep a ++ sep ++ joinWith sep b
  | [], _, h, _ => absurd rfl h
  | [x], [], _, h => absurd rfl h
  | [x], y :: t, _, _ => by simp [joinWith]
  | x :: x' :: t, b, _, hb => by
    have := join_append sep (x' :: t) b (by simp) hb
    simp only [List.cons_append] at this ⊢
    simp only [joinWith]
    rw [this]
    simp

theorem join_flat (sep : List Char) : ∀ (ls : List (List (List Char))), (∀ l ∈ ls, l ≠ []) → joinWith sep (ls.map (joinWith sep)) = joinWith sep ls.flatten
  | [], _ => rfl
  | [a], _ => by simp [joinWith]
  | a :: b :: t, h => by
    have ih := join_flat sep (b :: t) (fun l hl => h l (List.mem_cons_of_mem _ hl))
    simp only [List.map_cons] at ih ⊢
    rw [List.flatten_cons, join_append sep a _ (h a (by simp)) (by
      intro h0
      have := h b (by simp)
      simp [List.flatten_cons] at h0
      exact this h0.1), ← ih]
    rfl

/-! ## Lines -/

/-- The cells of the header: the descriptions, cut at ", ". -/
def headerCells (descriptions : List (List Char)) : List (List Char) := (descriptions.map (splitText [',', ' '])).flatten

/-- The cells of a row: the time and all values. -/
def rowCells (num : ℚ → List Char) (z : Zone) (row : ℤ × List (List ℚ)) : List (List Char) := rowStamp z row.1 :: row.2.flatten.map num

theorem header_join (sep : List Char) (ds : List (List Char)) : headerText sep ds = joinWith sep (headerCells ds) := by
  unfold headerText headerCells
  rw [← join_flat sep _ (by
    intro l hl
    obtain ⟨d, _, rfl⟩ := List.mem_map.mp hl
    exact pieces_ne _ _ _), List.map_map]
  congr 1
  apply List.map_congr_left
  intro d _
  exact replace_join _ _ d 0

theorem line_join (sep : List Char) (num : ℚ → List Char) (z : Zone) (row : ℤ × List (List ℚ)) (h : ∀ v ∈ row.2, v ≠ []) : csvLineText sep num z row = joinWith sep (rowCells num z row) := by
  obtain ⟨t, vs⟩ := row
  unfold csvLineText rowCells
  simp only at h ⊢
  generalize rowStamp z t = first
  induction vs generalizing first with
  | nil => simp [joinWith]
  | cons v vs ih =>
    have hv := h v (by simp)
    simp only [List.flatMap_cons, List.flatten_cons, List.map_append]
    cases v with
    | nil => exact absurd rfl hv
    | cons x xs =>
      have ih' := ih (fun w hw => h w (List.mem_cons_of_mem _ hw))
      rw [List.map_cons]
      by_cases hvs : vs = []
      · subst hvs
        simp [joinWith]
      · have hne : vs.flatten.map num ≠ [] := by
          intro h0
          have h1 := List.map_eq_nil_iff.mp h0
          cases vs with
          | nil => exact hvs rfl
          | cons w ws =>
            have := h w (by simp)
            simp [List.flatten_cons] at h1
            exact this h1.1
        have e1 : first :: (num x :: xs.map num ++ vs.flatten.map num) = (first :: num x :: xs.map num) ++ vs.flatten.map num := by simp
        rw [e1, join_append sep _ _ (by simp) hne]
        have e2 := ih' []
        have e3 : joinWith sep ([] :: vs.flatten.map num) = sep ++ joinWith sep (vs.flatten.map num) := by
          cases hq : vs.flatten.map num with
          | nil => exact absurd hq hne
          | cons a b => simp [joinWith]
        rw [e3, List.nil_append] at e2
        rw [e2]
        simp [joinWith]

/-! ## The file -/

theorem lines_split (h : List Char) (hh : '\n' ∉ h) : ∀ (ls : List (List Char)), (∀ l ∈ ls, '\n' ∉ l) →
    splitText ['\n'] (h ++ '\n' :: ls.flatMap (fun l => l ++ ['\n'])) = h :: ls ++ [[]]
  | [], _ => by
    have := split_cell '\n' [] h [] hh
    simpa [splitText, pieces] using this
  | l :: t, hl => by
    have := split_cell '\n' [] h (l ++ '\n' :: t.flatMap (fun l => l ++ ['\n'])) hh
    have ih := lines_split l (hl l (by simp)) t (fun x hx => hl x (List.mem_cons_of_mem _ hx))
    unfold splitText at ih ⊢
    rw [show h ++ '\n' :: (l :: t).flatMap (fun l => l ++ ['\n']) = h ++ ['\n'] ++ (l ++ '\n' :: t.flatMap (fun l => l ++ ['\n'])) by simp, this, ih]
    rfl

theorem mem_join {c : Char} {sep : List Char} : ∀ {cells : List (List Char)}, c ∈ joinWith sep cells → c ∈ sep ∨ ∃ x ∈ cells, c ∈ x
  | [], h => by simp [joinWith] at h
  | [a], h => Or.inr ⟨a, by simp, h⟩
  | a :: b :: t, h => by
    simp only [joinWith, List.mem_append] at h
    rcases h with (h | h) | h
    · exact Or.inr ⟨a, by simp, h⟩
    · exact Or.inl h
    · rcases mem_join h with h | ⟨x, hx, hc⟩
      · exact Or.inl h
      · exact Or.inr ⟨x, List.mem_cons_of_mem _ hx, hc⟩

/-- **C113, reading back.**  If neither the first character of the separator nor a line end occurs in the words of the header, in the texts of numbers and in time stamps, and the separator holds no line end: splitting the text into lines and the lines at the
separator gives the words of the header, then for each row its time and its numbers, and an empty last line. -/
theorem C113_readback (separator : List Char) (num : ℚ → List Char) (z : Zone) (file : CsvFile) (s : Char) (sep' : List Char) (hs : csvSeparator separator = s :: sep') (hsn : '\n' ∉ csvSeparator separator)
    (hne : file.header ≠ []) (hrows : ∀ r ∈ file.rows, ∀ v ∈ r.2, v ≠ [])
    (hhead : ∀ c ∈ headerCells (file.header.map String.toList), s ∉ c ∧ '\n' ∉ c) (hnum : ∀ x, s ∉ num x ∧ '\n' ∉ num x) (htime : ∀ r ∈ file.rows, s ∉ rowStamp z r.1 ∧ '\n' ∉ rowStamp z r.1) :
    (splitText ['\n'] (csvText separator num z file)).map (splitText (csvSeparator separator)) =
      headerCells (file.header.map String.toList) :: file.rows.map (rowCells num z) ++ [[[]]] := by
  have hcells : ∀ r ∈ file.rows, ∀ c ∈ rowCells num z r, s ∉ c ∧ '\n' ∉ c := by
    intro r hr c hc
    rcases List.mem_cons.mp hc with e | e
    · rw [e]; exact htime r hr
    · obtain ⟨x, _, rfl⟩ := List.mem_map.mp e
      exact hnum x
  have hH : '\n' ∉ headerText (csvSeparator separator) (file.header.map String.toList) := by
    rw [header_join]
    intro hm
    rcases mem_join hm with h | ⟨x, hx, h⟩
    · exact hsn h
    · exact (hhead x hx).2 h
  have hL : ∀ l ∈ file.rows.map (csvLineText (csvSeparator separator) num z), '\n' ∉ l := by
    intro l hl
    obtain ⟨r, hr, rfl⟩ := List.mem_map.mp hl
    rw [line_join _ _ _ _ (hrows r hr)]
    intro hm
    rcases mem_join hm with h | ⟨x, hx, h⟩
    · exact hsn h
    · exact (hcells r hr x hx).2 h
  have ht : csvText separator num z file = headerText (csvSeparator separator) (file.header.map String.toList) ++ '\n' :: (file.rows.map (csvLineText (csvSeparator separator) num z)).flatMap (fun l => l ++ ['\n']) := by
    unfold csvText
    rw [List.flatMap_map]
  rw [ht, lines_split _ hH _ hL]
  simp only [List.cons_append, List.map_cons, List.map_append, List.map_map, List.map_nil]
  congr 1
  · rw [header_join, hs]
    apply split_join
    · intro h0
      cases hh : file.header with
      | nil => exact hne hh
      | cons a b =>
        rw [hh] at h0
        unfold headerCells at h0
        simp only [List.map_cons, List.flatten_cons] at h0
        exact pieces_ne _ _ _ (List.append_eq_nil_iff.mp h0).1
    · exact fun c hc => (hhead c hc).1
  · congr 1
    apply List.map_congr_left
    intro r hr
    simp only [Function.comp]
    rw [line_join _ _ _ _ (hrows r hr), hs]
    exact split_join s sep' _ (by simp [rowCells]) (fun c hc => (hcells r hr c hc).1)

/-- **C113, the columns.**  Under the same conditions each line has as many columns as the header exactly if the descriptions have as many words as there are numbers in each row, plus the time. -/
theorem C113_columns (num : ℚ → List Char) (z : Zone) (file : CsvFile) :
    (∀ r ∈ file.rows, (rowCells num z r).length = (headerCells (file.header.map String.toList)).length) ↔
      ∀ r ∈ file.rows, 1 + (r.2.map List.length).sum = ((file.header.map String.toList).map (fun d => (splitText [',', ' '] d).length)).sum := by
  have h1 : ∀ r : ℤ × List (List ℚ), (rowCells num z r).length = 1 + (r.2.map List.length).sum := by
    intro r
    simp only [rowCells, List.length_cons, List.length_map, List.length_flatten, Nat.add_comm]
  have h2 : (headerCells (file.header.map String.toList)).length = ((file.header.map String.toList).map (fun d => (splitText [',', ' '] d).length)).sum := by
    simp only [headerCells, List.length_flatten, List.map_map]
    rfl
  constructor
  · intro h r hr
    rw [← h1, ← h2]
    exact h r hr
  · intro h r hr
    rw [h1, h2]
    exact h r hr

/-- The descriptions the writer gives its datasets (writer.py l.258, l.269, l.280), in the order of the export. -/
def writerHeader : List String := ["system time [s] = value * gain + (offset)", "current [A] = value * gain + offset", "voltage [V] = value * gain + offset"]

/-- The characters of time stamps: digits, signs between them, and a blank. -/
theorem stamp_chars (z : Zone) (t : ℤ) : ∀ c ∈ rowStamp z t, ('0' ≤ c ∧ c ≤ '9') ∨ c = '-' ∨ c = ' ' ∨ c = ':' ∨ c = '.' := by
  have hd : ∀ k n, ∀ c ∈ fixedDigits k n, '0' ≤ c ∧ c ≤ '9' := by
    intro k
    induction k with
    | zero => intro n c hc; simp [fixedDigits] at hc
    | succ k ih =>
      intro n c hc
      rcases List.mem_cons.mp hc with e | e
      · rw [e, digitOf_mod]
        have : ∀ a < 10, '0' ≤ digitOf a ∧ digitOf a ≤ '9' := by decide +kernel
        exact this _ (Nat.mod_lt _ (by norm_num))
      · exact ih n c e
  have hy : ∀ y, ∀ c ∈ yearText y, '0' ≤ c ∧ c ≤ '9' := by
    intro y c hc
    unfold yearText at hc
    split_ifs at hc <;> exact hd _ _ c hc
  intro c hc
  unfold rowStamp at hc
  generalize shownTime z t = w at hc
  unfold stampText at hc
  simp only at hc
  have hsign : ∀ (k : Char) (l : List Char), (k = '-' ∨ k = ' ' ∨ k = ':' ∨ k = '.') → (∀ c ∈ l, '0' ≤ c ∧ c ≤ '9') → c ∈ k :: l → ('0' ≤ c ∧ c ≤ '9') ∨ c = '-' ∨ c = ' ' ∨ c = ':' ∨ c = '.' := by
    intro k l hk hl hm
    rcases List.mem_cons.mp hm with e | e
    · right; rw [e]; exact hk
    · left; exact hl c e
  rcases List.mem_append.mp hc with hc | hc
  · rcases List.mem_append.mp hc with hc | hc
    · rcases List.mem_append.mp hc with hc | hc
      · rcases List.mem_append.mp hc with hc | hc
        · rcases List.mem_append.mp hc with hc | hc
          · rcases List.mem_append.mp hc with hc | hc
            · exact Or.inl (hy _ c hc)
            · exact hsign _ _ (by simp) (hd _ _) hc
          · exact hsign _ _ (by simp) (hd _ _) hc
        · exact hsign _ _ (by simp) (hd _ _) hc
      · exact hsign _ _ (by simp) (hd _ _) hc
    · exact hsign _ _ (by simp) (hd _ _) hc
  · exact hsign _ _ (by simp) (hd _ _) hc

/-- **C113, recordings.**  The data of a recording, exported with the separators ";" or ",": the text, split at line ends and separators, is the header with three words and lines of three cells with the time, the current and the voltage. -/
theorem C113_recording (separator : List Char) (hsep : separator = [';'] ∨ separator = [',']) (num : ℚ → List Char) (hnum : ∀ x, ';' ∉ num x ∧ ',' ∉ num x ∧ '\n' ∉ num x) (z : Zone)
    (rows : List (ℤ × ℚ × ℚ)) :
    (splitText ['\n'] (csvText separator num z ⟨writerHeader, rows.map (fun r => (r.1, [[r.2.1], [r.2.2]]))⟩)).map (splitText (csvSeparator separator)) =
      writerHeader.map String.toList :: rows.map (fun r => [rowStamp z r.1, num r.2.1, num r.2.2]) ++ [[[]]] := by
  have hcell : headerCells (writerHeader.map String.toList) = writerHeader.map String.toList := by decide +kernel
  have hchars : ∀ c : Char, c = ';' ∨ c = ',' ∨ c = '\n' → ∀ t, c ∉ rowStamp z t := by
    intro c hc t hm
    have := stamp_chars z t c hm
    rcases hc with e | e | e <;> subst e <;> revert this <;> decide
  have key : ∀ s : Char, s = ';' ∨ s = ',' → csvSeparator [s] = [s, ' '] ∧ (∀ c ∈ writerHeader.map String.toList, s ∉ c ∧ '\n' ∉ c) := by
    intro s hs
    rcases hs with rfl | rfl <;> decide +kernel
  obtain ⟨s, hs, rfl⟩ : ∃ s, (s = ';' ∨ s = ',') ∧ separator = [s] := by
    rcases hsep with h | h
    · exact ⟨';', Or.inl rfl, h⟩
    · exact ⟨',', Or.inr rfl, h⟩
  obtain ⟨k1, k2⟩ := key s hs
  have := C113_readback [s] num z ⟨writerHeader, rows.map (fun r => (r.1, [[r.2.1], [r.2.2]]))⟩ s [' '] k1 (by rw [k1]; rcases hs with rfl | rfl <;> decide) (by simp [writerHeader])
    (by
      intro r hr v hv
      obtain ⟨x, _, rfl⟩ := List.mem_map.mp hr
      simp only [List.mem_cons, List.not_mem_nil, or_false] at hv
      rcases hv with e | e <;> rw [e] <;> simp)
    (by rw [hcell]; exact k2)
    (by
      intro x
      rcases hs with rfl | rfl
      · exact ⟨(hnum x).1, (hnum x).2.2⟩
      · exact ⟨(hnum x).2.1, (hnum x).2.2⟩)
    (by
      intro r hr
      refine ⟨hchars s (by tauto) _, hchars '\n' (by tauto) _⟩)
  rw [this, hcell]
  simp [rowCells, List.map_map, Function.comp_def]

/-- The group "data" of a recording by the writer: the three descriptions, calibrations, and as many currents and voltages as times. -/
def recordedGroup (timeGain gainC offsetC gainV offsetV : ℚ) (samples : List (ℤ × ℚ × ℚ)) : CsvGroup :=
  { timeDescription := writerHeader[0]?
    timeGain := some timeGain
    time := samples.map (fun s => s.1)
    others := [⟨writerHeader[1]?, some gainC, some offsetC, samples.map (fun s => [s.2.1])⟩, ⟨writerHeader[2]?, some gainV, some offsetV, samples.map (fun s => [s.2.2])⟩] }

/-- **C113, from the recording to the text.**  A recording that is not empty, exported where no file is: the text of the file, split at line ends and separators, is the header and for each sample, in order, the time and the two values in physical units. -/
theorem C113_export {fl : ℚ → ℚ} (separator : List Char) (hsep : separator = [';'] ∨ separator = [',']) (num : ℚ → List Char) (hnum : ∀ x, ';' ∉ num x ∧ ',' ∉ num x ∧ '\n' ∉ num x) (z : Zone)
    (gt gc oc gv ov : ℚ) (samples : List (ℤ × ℚ × ℚ)) (hne : samples ≠ []) :
    ∃ file, saveCsv fl false none (some (recordedGroup gt gc oc gv ov samples)) = (some file, .ok samples.length) ∧
      (splitText ['\n'] (csvText separator num z file)).map (splitText (csvSeparator separator)) =
        writerHeader.map String.toList ::
          samples.map (fun s => [rowStamp z (microStamp fl (fl (fl s.1 * gt))), num (fl (fl (fl s.2.1 * gc) + oc)), num (fl (fl (fl s.2.2 * gv) + ov))]) ++ [[[]]] := by
  obtain ⟨f, h1, h2, h3, h4⟩ := C65_rows fl false (recordedGroup gt gc oc gv ov samples) (by simpa [recordedGroup] using hne) (by
    refine ⟨by simp [recordedGroup, writerHeader], ?_, ?_⟩
    · intro d hd
      simp only [recordedGroup, List.mem_cons, List.not_mem_nil, or_false] at hd
      rcases hd with e | e <;> rw [e] <;> simp [writerHeader]
    · intro d hd
      simp only [recordedGroup, List.mem_cons, List.not_mem_nil, or_false] at hd
      rcases hd with e | e <;> rw [e] <;> simp [recordedGroup])
  have hlen : (recordedGroup gt gc oc gv ov samples).time.length = samples.length := by simp [recordedGroup]
  rw [hlen] at h1 h2
  refine ⟨f, h1, ?_⟩
  have hh : f.header = writerHeader := by
    have : f.header.map some = writerHeader.map some := by
      rw [h3]; simp [recordedGroup, writerHeader]
    exact List.map_injective_iff.mpr (Option.some_injective _) this
  have hr : f.rows = (samples.map (fun s : ℤ × ℚ × ℚ => (microStamp fl (fl (fl (s.1 : ℚ) * gt)), fl (fl (fl s.2.1 * gc) + oc), fl (fl (fl s.2.2 * gv) + ov)))).map (fun r => (r.1, [[r.2.1], [r.2.2]])) := by
    apply List.ext_getElem?
    intro i
    by_cases hi : i < samples.length
    · have := h4 i (samples[i].1) (by simp [recordedGroup, hi])
      rw [this]
      simp [recordedGroup, hi, csvValue]
    · rw [List.getElem?_eq_none (by omega), List.getElem?_eq_none (by simpa using hi)]
  have := C113_recording separator hsep num hnum z (samples.map (fun s : ℤ × ℚ × ℚ => (microStamp fl (fl (fl (s.1 : ℚ) * gt)), fl (fl (fl s.2.1 * gc) + oc), fl (fl (fl s.2.2 * gv) + ov))))
  rw [← hh, ← hr] at this
  have hf : (⟨f.header, f.rows⟩ : CsvFile) = f := rfl
  rw [hf] at this
  rw [this, hh, List.map_map]
  rfl

/-- **C113, violated: tabulators.**  A table separated by tabulators can not be exported: white space that is asked for becomes two blanks. -/
theorem C113_tab_violated (s : List Char) (h : ∀ c ∈ s, isBlank c = true) : csvSeparator s = [' ', ' '] := by
  have h0 : s.dropWhile isBlank = [] := by
    induction s with
    | nil => rfl
    | cons c t ih => rw [List.dropWhile_cons, if_pos (h c (by simp))]; exact ih (fun c hc => h c (List.mem_cons_of_mem _ hc))
  unfold csvSeparator stripBlank
  rw [h0]
  rfl

/-- Non-vacuity: the tabulator; and a recording of two samples. -/
example : csvSeparator ['\t'] = [' ', ' '] := C113_tab_violated ['\t'] (by decide)
example : csvText [';'] (fun x => if x = 1 then ['1', '.', '0'] else ['2', '.', '5']) ⟨0, 0, false, fun _ => false⟩ ⟨writerHeader, [(1690000000000010, [[1], [5/2]])]⟩ =
    "system time [s] = value * gain + (offset); current [A] = value * gain + offset; voltage [V] = value * gain + offset\n2023-07-22 04:26:40.000010; 1.0; 2.5\n".toList := by decide +kernel

/-- **C113, violated: several values, one description.**  A dataset with two values in a row and a description without ", " makes lines longer than the header. -/
theorem C113_columns_violated : ∃ file : CsvFile, ¬ ∀ (num : ℚ → List Char) (z : Zone), ∀ r ∈ file.rows, (rowCells num z r).length = (headerCells (file.header.map String.toList)).length :=
  ⟨⟨["time [s]", "delays [ns]"], [(0, [[1, 2]])]⟩, fun h => by
    have := h (fun _ => []) ⟨0, 0, false, fun _ => false⟩ (0, [[1, 2]]) (by simp)
    revert this
    decide +kernel⟩

/-! ## Logs -/

theorem pieces_count : ∀ (l : List Char), (pieces ['\n'] 0 l).length = l.count '\n' + 1
  | [] => rfl
  | c :: t => by
    have ih := pieces_count t
    simp only [pieces]
    by_cases h : c = '\n'
    · subst h
      rw [if_pos (by simp [List.isPrefixOf])]
      simp [ih]
    · rw [if_neg (by simp [List.isPrefixOf, Ne.symm h])]
      cases hp : pieces ['\n'] 0 t with
      | nil => exact absurd hp (pieces_ne _ _ _)
      | cons a b =>
        rw [hp] at ih
        simp only [List.length_cons] at ih ⊢
        rw [List.count_cons_of_ne h, ih]

theorem stamp_line_end (z : Zone) (t : ℤ) : '\n' ∉ rowStamp z t ∧ '\t' ∉ rowStamp z t := by
  constructor <;> intro hm <;> have := stamp_chars z t _ hm <;> revert this <;> decide

theorem logLine_count (z : Zone) (line : Option ℤ × List String) : (logLineText z line).count '\n' = (line.2.map (fun m => m.toList.count '\n')).sum := by
  have hms : ∀ ms : List String, (ms.flatMap (fun m => '\t' :: m.toList)).count '\n' = (ms.map (fun m => m.toList.count '\n')).sum := by
    intro ms
    induction ms with
    | nil => rfl
    | cons m ms ih => simp [List.flatMap_cons, List.count_append, ih]
  obtain ⟨t, ms⟩ := line
  unfold logLineText
  rw [List.count_append, hms]
  cases t with
  | none => simp
  | some t =>
    simp only [List.count_append]
    rw [List.count_eq_zero.mpr (stamp_line_end z t).1]
    simp

/-- **C74, the text of the log.**  The file has a line for each entry, and the empty one after the last line end, exactly if no message contains a line end. -/
theorem C74_text (z : Zone) (lines : List (Option ℤ × List String)) :
    (splitText ['\n'] (logText z lines)).length = lines.length + 1 ↔ ∀ l ∈ lines, ∀ m ∈ l.2, '\n' ∉ m.toList := by
  unfold splitText
  rw [pieces_count]
  have hc : (logText z lines).count '\n' = lines.length + (lines.map (fun l => (l.2.map (fun m => m.toList.count '\n')).sum)).sum := by
    unfold logText
    induction lines with
    | nil => rfl
    | cons l t ih =>
      simp only [List.flatMap_cons, List.count_append, List.map_cons, List.sum_cons, List.length_cons]
      rw [ih, logLine_count]
      simp
      omega
  rw [hc]
  constructor
  · intro h l hl m hm
    have h0 : (lines.map (fun l => (l.2.map (fun m => m.toList.count '\n')).sum)).sum = 0 := by omega
    have h1 := List.sum_eq_zero_iff_forall_eq_nat.mp h0 _ (List.mem_map.mpr ⟨l, hl, rfl⟩)
    have h2 := List.sum_eq_zero_iff_forall_eq_nat.mp h1 _ (List.mem_map.mpr ⟨m, hm, rfl⟩)
    exact List.count_eq_zero.mp h2
  · intro h
    have : (lines.map (fun l => (l.2.map (fun m => m.toList.count '\n')).sum)).sum = 0 := by
      apply List.sum_eq_zero_iff_forall_eq_nat.mpr
      intro x hx
      obtain ⟨l, hl, rfl⟩ := List.mem_map.mp hx
      apply List.sum_eq_zero_iff_forall_eq_nat.mpr
      intro y hy
      obtain ⟨m, hm, rfl⟩ := List.mem_map.mp hy
      exact List.count_eq_zero.mpr (h l hl m hm)
    omega

/-- **C74, reading back.**  If messages contain neither line ends nor tabulators, splitting the text of a stamped log gives back the time stamps, each with a colon, and the messages. -/
theorem C74_readback (z : Zone) (lines : List (ℤ × List String)) (hm : ∀ l ∈ lines, ∀ m ∈ l.2, '\n' ∉ m.toList ∧ '\t' ∉ m.toList) :
    (splitText ['\n'] (logText z (lines.map (fun l => (some l.1, l.2))))).map (splitText ['\t']) = lines.map (fun l => (rowStamp z l.1 ++ [':']) :: l.2.map String.toList) ++ [[[]]] := by
  have hj : ∀ l : ℤ × List String, logLineText z (some l.1, l.2) = joinWith ['\t'] ((rowStamp z l.1 ++ [':']) :: l.2.map String.toList) := by
    intro l
    unfold logLineText
    simp only
    generalize rowStamp z l.1 ++ [':'] = first
    induction l.2 generalizing first with
    | nil => simp [joinWith]
    | cons m ms ih =>
      simp only [List.flatMap_cons, List.map_cons, joinWith]
      rw [← ih m.toList]
      simp
  have hstamp : ∀ t c, (c = '\n' ∨ c = '\t') → c ∉ rowStamp z t ++ [':'] := by
    intro t c hc hmem
    rcases List.mem_append.mp hmem with h | h
    · rcases hc with rfl | rfl
      · exact (stamp_line_end z t).1 h
      · exact (stamp_line_end z t).2 h
    · rcases hc with rfl | rfl <;> revert h <;> decide
  have hline : ∀ l ∈ lines, '\n' ∉ logLineText z (some l.1, l.2) := by
    intro l hl h
    rw [hj] at h
    rcases mem_join h with h | ⟨x, hx, h⟩
    · revert h; decide
    · rcases List.mem_cons.mp hx with e | e
      · rw [e] at h; exact hstamp _ _ (Or.inl rfl) h
      · obtain ⟨m, hmm, rfl⟩ := List.mem_map.mp e
        exact (hm l hl m hmm).1 h
  have hsplit : ∀ ls : List (ℤ × List String), (∀ l ∈ ls, '\n' ∉ logLineText z (some l.1, l.2)) →
      splitText ['\n'] (logText z (ls.map (fun l => (some l.1, l.2)))) = ls.map (fun l => logLineText z (some l.1, l.2)) ++ [[]] := by
    intro ls h
    induction ls with
    | nil => rfl
    | cons l t ih =>
      have := split_cell '\n' [] (logLineText z (some l.1, l.2)) (logText z (t.map (fun l => (some l.1, l.2)))) (h l (by simp))
      unfold splitText at ih ⊢
      unfold logText at this ih ⊢
      simp only [List.map_cons, List.flatMap_cons]
      rw [this, ih (fun x hx => h x (List.mem_cons_of_mem _ hx))]
      rfl
  rw [hsplit lines hline, List.map_append, List.map_map]
  congr 1
  apply List.map_congr_left
  intro l hl
  simp only [Function.comp]
  rw [hj]
  apply split_join
  · simp
  · intro c hc
    rcases List.mem_cons.mp hc with e | e
    · rw [e]; exact hstamp _ _ (Or.inr rfl)
    · obtain ⟨m, hmm, rfl⟩ := List.mem_map.mp e
      exact (hm l hl m hmm).2

/-- Specification: reading the part of a byte string in Python's notation between the quotes. -/
def readBytes : List Char → List ℕ
  | [] => []
  | '\\' :: 't' :: r => 9 :: readBytes r
  | '\\' :: 'n' :: r => 10 :: readBytes r
  | '\\' :: 'r' :: r => 13 :: readBytes r
  | '\\' :: 'x' :: a :: b :: r => (hexValue a * 16 + hexValue b) :: readBytes r
  | '\\' :: c :: r => c.toNat :: readBytes r
  | c :: r => c.toNat :: readBytes r
where
  /-- The value of a hexadecimal digit. -/
  hexValue (c : Char) : ℕ := if c.toNat ≤ 57 then c.toNat - 48 else c.toNat - 87

/-- Specification: reading a byte string in Python's notation, with its mark and between equal quotes. -/
def readByteString : List Char → Option (List ℕ)
  | 'b' :: q :: r => if (q = '\'' ∨ q = '"') ∧ r.getLast? = some q then some (readBytes r.dropLast) else none
  | _ => none

theorem readByte (b : ℕ) (hb : b < 256) (r : List Char) : readBytes (byteText '\'' b ++ r) = b :: readBytes r ∧ readBytes (byteText '"' b ++ r) = b :: readBytes r := by
  constructor <;> interval_cases b <;> rfl

theorem byteText_plain : ∀ b < 256, ∀ c ∈ byteText '\'' b ++ byteText '"' b, 32 ≤ c.toNat := by decide +kernel

theorem readBytes_flat (q : Char) (hq : q = '\'' ∨ q = '"') : ∀ (l : List ℕ), (∀ b ∈ l, b < 256) → readBytes (l.flatMap (byteText q)) = l
  | [], _ => rfl
  | b :: t, h => by
    rw [List.flatMap_cons]
    have hr := readByte b (h b (by simp)) (t.flatMap (byteText q))
    have ht := readBytes_flat q hq t (fun x hx => h x (List.mem_cons_of_mem _ hx))
    rcases hq with rfl | rfl
    · rw [hr.1, ht]
    · rw [hr.2, ht]

/-- **C74, messages.**  What is written for a message has neither line ends nor tabulators, and the message can be read from it. -/
theorem C74_message (l : List ℕ) (hl : ∀ b ∈ l, b < 256) :
    readByteString (bytesText l).toList = some l ∧ '\n' ∉ (bytesText l).toList ∧ '\t' ∉ (bytesText l).toList := by
  obtain ⟨q, hq, he⟩ : ∃ q, (q = '\'' ∨ q = '"') ∧ (bytesText l).toList = 'b' :: q :: l.flatMap (byteText q) ++ [q] := by
    unfold bytesText
    by_cases h : 39 ∈ l ∧ 34 ∉ l
    · exact ⟨'"', Or.inr rfl, by simp [h]⟩
    · exact ⟨'\'', Or.inl rfl, by simp only [if_neg h]; simp⟩
  rw [he]
  have hc : ∀ c ∈ 'b' :: q :: l.flatMap (byteText q) ++ [q], 32 ≤ c.toNat := by
    intro c hc
    have hq' : 32 ≤ q.toNat := by rcases hq with rfl | rfl <;> decide
    simp only [List.cons_append, List.mem_cons, List.mem_append, List.mem_flatMap, List.not_mem_nil, or_false] at hc
    rcases hc with rfl | rfl | ⟨b, hb, hc⟩ | rfl
    · decide
    · exact hq'
    · refine byteText_plain b (hl b hb) c (List.mem_append.mpr ?_)
      rcases hq with rfl | rfl
      · exact Or.inl hc
      · exact Or.inr hc
    · exact hq'
  refine ⟨?_, fun h => ?_, fun h => ?_⟩
  · simp only [List.cons_append, readByteString]
    rw [if_pos ⟨hq, by simp⟩, List.dropLast_concat, readBytes_flat q hq l hl]
  · have := hc _ h; revert this; decide
  · have := hc _ h; revert this; decide

/-- **C74, end to end.**  From the text of a stamped log with byte strings as messages, whatever they contain, each entry can be read:
its line has the time stamp with a colon, and each message in Python's notation. -/
theorem C74_log (z : Zone) (entries : List (ℤ × List (List ℕ))) (hb : ∀ e ∈ entries, ∀ m ∈ e.2, ∀ b ∈ m, b < 256) :
    ((splitText ['\n'] (logText z (entries.map (fun e => (some e.1, e.2.map bytesText))))).dropLast.map (splitText ['\t'])).map
        (fun line => (line.head?, line.tail.map readByteString)) = entries.map (fun e => (some (rowStamp z e.1 ++ [':']), e.2.map some)) := by
  have h := C74_readback z (entries.map (fun e => (e.1, e.2.map bytesText))) (by
    intro l hl m hm
    obtain ⟨e, he, rfl⟩ := List.mem_map.mp hl
    obtain ⟨x, hx, rfl⟩ := List.mem_map.mp hm
    exact (C74_message x (hb e he x hx)).2)
  rw [List.map_map] at h
  have h2 := congrArg List.dropLast h
  rw [List.dropLast_concat, ← List.map_dropLast, List.map_map] at h2
  have h3 : (fun l : ℤ × List String => ((some l.1 : Option ℤ), l.2)) ∘ (fun e : ℤ × List (List ℕ) => (e.1, e.2.map bytesText)) = fun e => (some e.1, e.2.map bytesText) := rfl
  rw [h3] at h2
  rw [h2, List.map_map]
  apply List.map_congr_left
  intro e he
  simp only [Function.comp, List.head?_cons, List.tail_cons, List.map_map]
  congr 1
  apply List.map_congr_left
  intro m hm
  exact (C74_message m (hb e he m hm)).1

/-- **C74, violated: messages are not written as they are**, but in Python's notation for byte strings, at least three characters longer. -/
theorem C74_verbatim_violated (l : List ℕ) : (bytesText l).toList ≠ l.map Char.ofNat := by
  intro h
  have hlen := congrArg List.length h
  have hb : ∀ q b, 1 ≤ (byteText q b).length := by
    intro q b
    unfold byteText
    split_ifs <;> simp
  have hf : ∀ (q : Char) (l : List ℕ), l.length ≤ (l.flatMap (byteText q)).length := by
    intro q l
    induction l with
    | nil => simp
    | cons b t ih =>
      rw [List.flatMap_cons, List.length_append, List.length_cons]
      have := hb q b
      omega
  unfold bytesText at hlen
  have := hf (if 39 ∈ l ∧ 34 ∉ l then '"' else '\'') l
  simp only [String.toList_ofList, List.length_append, List.length_cons, List.length_map, List.length_nil] at hlen
  omega

/-- Non-vacuity: a message with a line end and an ä, and one with a quote. -/
example : bytesText [72, 105, 10, 195, 164] = "b'Hi\\n\\xc3\\xa4'" ∧ bytesText [105, 39, 109] = "b\"i'm\"" := by decide +kernel

/-- A message with a line end that is not a byte string, as h5py 2 gives, takes two lines. -/
example (z : Zone) : (splitText ['\n'] (logText z [(none, ["first\nsecond"])])).length ≠ 1 + 1 := by
  intro h
  have := (C74_text z [(none, ["first\nsecond"])]).mp h (none, ["first\nsecond"]) (by simp) "first\nsecond" (by simp)
  revert this
  decide +kernel

/-- Non-vacuity: two entries. -/
example : logText ⟨0, 0, false, fun _ => false⟩ [(some 1690000000000010, ["boot", "ok"]), (some 1690000001000000, ["done"])] =
    "2023-07-22 04:26:40.000010:\tboot\tok\n2023-07-22 04:26:41.000000:\tdone\n".toList := by decide +kernel

end Verif.Props
