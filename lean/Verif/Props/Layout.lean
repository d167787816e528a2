import Verif.Model.Layout
import Verif.Props.Experiment
import Verif.Props.FloatText
import Verif.Props.Tasks

/-!
# C108: the table of the layout of the testbeds
-/

namespace Verif.Props
open Verif.Model Verif.Py

/-! ## Reading the table -/

/-- The cells of a line: what is between the separators. -/
def splitSemi : List Char → List (List Char)
  | [] => [[]]
  | [c] => [[c]]
  | a :: b :: t =>
    if a = ';' ∧ b = ' ' then [] :: splitSemi t
    else match splitSemi (b :: t) with
      | [] => [[a]]
      | u :: us => (a :: u) :: us

theorem splitSemi_ne : ∀ l : List Char, splitSemi l ≠ []
  | [] => by simp [splitSemi]
  | [c] => by simp [splitSemi]
  | a :: b :: t => by
    rw [splitSemi]
    split_ifs
    · simp
    · cases splitSemi (b :: t) <;> simp

theorem splitSemi_append : ∀ x y : List Char, splitSemi (x ++ ';' :: ' ' :: y) = splitSemi x ++ splitSemi y
  | [], y => by simp [splitSemi]
  | [c], y => by
    show splitSemi (c :: ';' :: (' ' :: y)) = _
    conv_lhs => rw [splitSemi, if_neg (by simp), splitSemi, if_pos ⟨rfl, rfl⟩]
    rfl
  | a :: b :: t, y => by
    show splitSemi (a :: b :: (t ++ ';' :: ' ' :: y)) = _
    rw [splitSemi, splitSemi]
    by_cases h : a = ';' ∧ b = ' '
    · rw [if_pos h, if_pos h, splitSemi_append t y]; rfl
    · rw [if_neg h, if_neg h]
      have ih := splitSemi_append (b :: t) y
      rw [List.cons_append] at ih
      rw [ih]
      have hne := splitSemi_ne (b :: t)
      cases hs : splitSemi (b :: t) with
      | nil => exact absurd hs hne
      | cons u us => rfl

theorem splitSemi_join : ∀ cells : List (List Char), cells ≠ [] → splitSemi (joinSemi cells) = cells.flatMap splitSemi
  | [], h => absurd rfl h
  | [c], _ => by simp [joinSemi]
  | a :: b :: t, _ => by
    have ih := splitSemi_join (b :: t) (by simp)
    have : joinSemi (a :: b :: t) = a ++ ';' :: ' ' :: joinSemi (b :: t) := by simp [joinSemi]
    rw [this, splitSemi_append, ih]
    rfl

theorem splitSemi_single : ∀ l : List Char, ¬ [';', ' '] <:+: l → splitSemi l = [l]
  | [], _ => rfl
  | [_], _ => rfl
  | a :: b :: t, h => by
    rw [splitSemi, if_neg (by rintro ⟨rfl, rfl⟩; exact h ⟨[], t, rfl⟩)]
    rw [splitSemi_single (b :: t) (fun ⟨x, y, e⟩ => h ⟨a :: x, y, by simp [← e]⟩)]

theorem splitSemi_long (l : List Char) (h : [';', ' '] <:+: l) : 2 ≤ (splitSemi l).length := by
  obtain ⟨x, y, rfl⟩ := h
  rw [List.append_assoc, List.cons_append, List.cons_append, List.nil_append, splitSemi_append, List.length_append]
  have h1 := List.length_pos_iff.mpr (splitSemi_ne x)
  have h2 := List.length_pos_iff.mpr (splitSemi_ne y)
  omega

/-! ## Rows -/

/-- The row for a target on an observer with a cape: one cell per column. -/
def RowFor (info : LayoutInfo) (tb : LayoutTestbed) (t : LayoutTarget) (o : ObserverDev) (c : CapeDev) (row : List (List Char)) : Prop :=
  row = ["tb_id", "tb_name", "target_id", "target_name", "cape_id", "cape_name", "observer_id", "observer_name", "room", "observer_description", "eth_port", "lat", "long"].map fun k =>
    match k with
    | "tb_id" => Nat.toDigits 10 tb.id
    | "tb_name" => tb.name.toList
    | "target_id" => Nat.toDigits 10 t.id
    | "target_name" => t.name.toList
    | "cape_id" => Nat.toDigits 10 c.id
    | "cape_name" => (info.cape c).toList
    | "observer_id" => Nat.toDigits 10 o.id
    | "observer_name" => o.name.toList
    | "room" => (info.observer o).room.toList
    | "observer_description" => ((info.observer o).description.getD "None").toList
    | "eth_port" => o.ethPort.toList
    | "lat" => floatText (info.observer o).latitude
    | _ => floatText (info.observer o).longitude

theorem cells_ok {info : LayoutInfo} {tb : LayoutTestbed} {t : LayoutTarget} {o : ObserverDev} {row : List (List Char)} (h : layoutCells info tb t o = .ok row) :
    ∃ c, o.cape = some c ∧ RowFor info tb t o c row := by
  unfold layoutCells at h
  cases hc : o.cape with
  | none => rw [hc] at h; cases h
  | some c =>
    rw [hc] at h
    cases h
    refine ⟨c, rfl, ?_⟩
    unfold RowFor
    have : strOption (info.observer o).description = ((info.observer o).description.getD "None").toList := by cases (info.observer o).description <;> rfl
    rw [this]
    rfl

/-- Whether a target is in use somewhere in a testbed. -/
def InUse (tb : LayoutTestbed) (t : LayoutTarget) : Prop := ∃ o ∈ tb.dev.observers, Carries o t.id

/-- A row tells the place of its target. -/
def Placed (info : LayoutInfo) (p : LayoutTestbed × LayoutTarget) (row : List (List Char)) : Prop :=
  ∃ o c, o ∈ p.1.dev.observers ∧ Carries o p.2.id ∧ o.cape = some c ∧ RowFor info p.1 p.2 o c row

/-- Every observer in use has a cape. -/
def Caped (tb : LayoutTestbed) : Prop := ∀ o ∈ tb.dev.observers, o.active = true → o.cape ≠ none

open Classical in
theorem targets_rows (info : LayoutInfo) (tb : LayoutTestbed) (hc : Caped tb) (ts : List LayoutTarget) :
    ∃ rows, layoutTargets info tb ts = (rows, .ok ()) ∧ List.Forall₂ (Placed info) ((ts.filter (fun t => InUse tb t)).map (fun t => (tb, t))) rows := by
  induction ts with
  | nil => exact ⟨[], rfl, .nil⟩
  | cons t ts ih =>
    obtain ⟨rows, h1, h2⟩ := ih
    rw [layoutTargets]
    by_cases hu : InUse tb t
    · obtain ⟨o, ho⟩ := (C57_complete_partial tb.dev hc t.id).1 hu
      obtain ⟨a, b⟩ := C57_found tb.dev t.id o ho
      obtain ⟨c, hcc⟩ := Option.ne_none_iff_exists'.mp (hc o a b.1)
      obtain ⟨row, hrow⟩ : ∃ row, layoutCells info tb t o = .ok row := by
        unfold layoutCells
        rw [hcc]
        exact ⟨_, rfl⟩
      rw [ho]
      dsimp only
      rw [hrow, h1]
      refine ⟨row :: rows, rfl, ?_⟩
      rw [List.filter_cons_of_pos (by simpa using hu), List.map_cons]
      obtain ⟨c', hc', hr⟩ := cells_ok hrow
      exact .cons ⟨o, c', a, b, hc', hr⟩ h2
    · rw [(C57_complete_partial tb.dev hc t.id).2 (fun o ho hcar => hu ⟨o, ho, hcar⟩)]
      refine ⟨rows, h1, ?_⟩
      rw [List.filter_cons_of_neg (by simpa using hu)]
      exact h2

open Classical in
/-- **C108** (partial: every observer in use has a cape).  The script finishes.  Its table has exactly one row for every testbed and every target in use there, in this order, and the
row tells the observer and the cape the target is on. -/
theorem C108_rows_partial (info : LayoutInfo) (ts : List LayoutTarget) (tbs : List LayoutTestbed) (hc : ∀ tb ∈ tbs, Caped tb) :
    ∃ rows, layoutScript info ts tbs = (joinSemi layoutColumns :: rows.map joinSemi, .ok ()) ∧
      List.Forall₂ (Placed info) (tbs.flatMap (fun tb => (ts.filter (fun t => InUse tb t)).map (fun t => (tb, t)))) rows := by
  have main : ∃ rows, layoutTestbeds info ts tbs = (rows, .ok ()) ∧
      List.Forall₂ (Placed info) (tbs.flatMap (fun tb => (ts.filter (fun t => InUse tb t)).map (fun t => (tb, t)))) rows := by
    induction tbs with
    | nil => exact ⟨[], rfl, .nil⟩
    | cons tb tbs ih =>
      obtain ⟨rows, h1, h2⟩ := ih (fun x hx => hc x (by simp [hx]))
      obtain ⟨r0, g1, g2⟩ := targets_rows info tb (hc tb (by simp)) ts
      refine ⟨r0 ++ rows, ?_, ?_⟩
      · rw [layoutTestbeds, g1, h1]
      · rw [List.flatMap_cons]
        exact List.rel_append g2 h2
  obtain ⟨rows, h1, h2⟩ := main
  exact ⟨rows, by unfold layoutScript; rw [h1], h2⟩

/-- **C108, cells** (partial: no value contains the separator).  Every line has one cell per column. -/
theorem C108_cells_partial (row : List (List Char)) (hne : row ≠ []) (hclean : ∀ x ∈ row, ¬ [';', ' '] <:+: x) : splitSemi (joinSemi row) = row := by
  rw [splitSemi_join row hne]
  have : row.flatMap splitSemi = row.flatMap (fun x => [x]) := List.flatMap_congr (fun x hx => splitSemi_single x (hclean x hx))
  rw [this]
  simp

/-- **C108, header.** -/
theorem C108_header : splitSemi (joinSemi layoutColumns) = ["tb_id", "tb_name", "target_id", "target_name", "cape_id", "cape_name", "observer_id", "observer_name", "room",
    "observer_description", "eth_port", "lat", "long"].map String.toList := by decide +kernel

theorem length_flatMap_gt : ∀ (l : List (List Char)) (x : List Char), x ∈ l → 2 ≤ (splitSemi x).length → l.length < (l.flatMap splitSemi).length
  | [], x, hx, _ => absurd hx (by simp)
  | y :: l, x, hx, h2 => by
    have hle : ∀ l : List (List Char), l.length ≤ (l.flatMap splitSemi).length := by
      intro l
      induction l with
      | nil => simp
      | cons z l ih =>
        have := List.length_pos_iff.mpr (splitSemi_ne z)
        rw [List.flatMap_cons, List.length_append, List.length_cons]
        omega
    rw [List.flatMap_cons, List.length_append, List.length_cons]
    rcases List.mem_cons.mp hx with rfl | hx
    · have := hle l
      omega
    · have h1 := length_flatMap_gt l x hx h2
      have := List.length_pos_iff.mpr (splitSemi_ne y)
      omega

/-- **C108 violated: descriptions.**  The description of an observer may contain the separator (any printable text is accepted); the row then has more cells than there are columns. -/
theorem C108_description_violated (info : LayoutInfo) (tb : LayoutTestbed) (t : LayoutTarget) (o : ObserverDev) (c : CapeDev) (row : List (List Char)) (d : String)
    (hr : RowFor info tb t o c row) (hd : (info.observer o).description = some d) (hs : [';', ' '] <:+: d.toList) : layoutColumns.length < (splitSemi (joinSemi row)).length := by
  have hmem : d.toList ∈ row := by
    rw [hr, hd]
    simp
  have hlen : row.length = 13 := by rw [hr]; rfl
  have hne : row ≠ [] := by rintro rfl; simp at hlen
  rw [splitSemi_join row hne]
  have := length_flatMap_gt row _ hmem (splitSemi_long _ hs)
  rw [hlen] at this
  exact this

/-- **C108 violated: observers without cape.**  If an observer in use has no cape and is first in its testbed, no target of that testbed and none of later testbeds is in the table, and the script fails. -/
theorem C108_capeless_violated (info : LayoutInfo) (t : LayoutTarget) (ts : List LayoutTarget) (tb : LayoutTestbed) (tbs : List LayoutTestbed) (o : ObserverDev) (r : List ObserverDev)
    (htb : tb.dev.observers = o :: r) (ho : o.active = true) (hc : o.cape = none) : layoutScript info (t :: ts) (tb :: tbs) = ([joinSemi layoutColumns], .error .attributeError) := by
  have h := C57_capeless_violated tb.dev [] r o htb ho hc t.id (by simp)
  unfold layoutScript
  rw [layoutTestbeds, layoutTargets, h]
  rfl

/-- No separator in a name: the semicolon is forbidden. -/
theorem nameOk_clean {s : String} (h : NameOk s) : ¬ [';', ' '] <:+: s.toList := by
  intro hi
  have : ';' ∈ s.toList := hi.subset (by simp)
  exact h.2.2 _ this (by decide)

theorem not_infix_of_digits {n : ℕ} : ¬ [';', ' '] <:+: Nat.toDigits 10 n := by
  intro hi
  have hm : ';' ∈ Nat.toDigits 10 n := hi.subset (by simp)
  have := Nat.isDigit_of_mem_toDigits (b := 10) (by norm_num) (by norm_num) hm
  revert this
  decide

/-- **C108, values.**  If the texts are names as the models demand and the description has no separator, the cells of a line are those of the row, and the coordinates are read back exactly. -/
theorem C108_values (info : LayoutInfo) (tb : LayoutTestbed) (t : LayoutTarget) (o : ObserverDev) (c : CapeDev) (row : List (List Char)) (hr : RowFor info tb t o c row)
    (hn : NameOk tb.name ∧ NameOk t.name ∧ NameOk (info.cape c) ∧ NameOk o.name ∧ NameOk (info.observer o).room ∧ NameOk o.ethPort)
    (hd : ∀ d, (info.observer o).description = some d → ¬ [';', ' '] <:+: d.toList)
    (hlat : b64 (info.observer o).latitude = (info.observer o).latitude) (hlon : b64 (info.observer o).longitude = (info.observer o).longitude) :
    splitSemi (joinSemi row) = row ∧ (splitSemi (joinSemi row))[11]?.map readFloat = some (info.observer o).latitude ∧
      (splitSemi (joinSemi row))[12]?.map readFloat = some (info.observer o).longitude := by
  obtain ⟨h1, h2, h3, h4, h5, h6⟩ := hn
  have hf : ∀ x, ¬ [';', ' '] <:+: floatText x := fun x hi => (floatText_clean x).1 (hi.subset (by simp))
  have hdesc : ¬ [';', ' '] <:+: ((info.observer o).description.getD "None").toList := by
    cases h : (info.observer o).description with
    | none => decide +kernel
    | some d => exact hd d h
  have hsplit : splitSemi (joinSemi row) = row := by
    refine C108_cells_partial row (by rw [hr]; simp) ?_
    rw [hr]
    simp only [List.map_cons, List.map_nil, List.mem_cons, List.not_mem_nil, or_false]
    rintro x (rfl | rfl | rfl | rfl | rfl | rfl | rfl | rfl | rfl | rfl | rfl | rfl | rfl)
    exacts [not_infix_of_digits, nameOk_clean h1, not_infix_of_digits, nameOk_clean h2, not_infix_of_digits, nameOk_clean h3, not_infix_of_digits, nameOk_clean h4, nameOk_clean h5, hdesc,
      nameOk_clean h6, hf _, hf _]
  refine ⟨hsplit, ?_, ?_⟩
  · rw [hsplit, hr]
    show some (readFloat (floatText (info.observer o).latitude)) = _
    rw [C117_number _ hlat]
  · rw [hsplit, hr]
    show some (readFloat (floatText (info.observer o).longitude)) = _
    rw [C117_number _ hlon]

/-- **C108, lines.**  A reader finds the lines of the table in the file, if no text has a line end. -/
theorem C108_lines_partial (h : List Char) (rows : List (List Char)) (hh : '\n' ∉ h) (hr : ∀ l ∈ rows, '\n' ∉ l) :
    splitText ['\n'] (layoutText (h :: rows)) = h :: rows ++ [[]] := by
  have : layoutText (h :: rows) = h ++ '\n' :: rows.flatMap (fun l => l ++ ['\n']) := by simp [layoutText]
  rw [this, lines_split _ hh _ hr]

theorem count_layoutText (lines : List (List Char)) : (layoutText lines).count '\n' = lines.length + (lines.map (List.count '\n')).sum := by
  induction lines with
  | nil => rfl
  | cons l ls ih =>
    have : layoutText (l :: ls) = l ++ ['\n'] ++ layoutText ls := by simp [layoutText]
    rw [this, List.count_append, List.count_append, ih]
    simp
    omega

theorem mem_joinSemi {x : List Char} : ∀ {row : List (List Char)}, x ∈ row → ∀ {c : Char}, c ∈ x → c ∈ joinSemi row
  | [], h, _, _ => absurd h (by simp)
  | [y], h, c, hc => by
    have : x = y := by simpa using h
    subst this
    simpa [joinSemi] using hc
  | y :: z :: t, h, c, hc => by
    have e : joinSemi (y :: z :: t) = y ++ [';', ' '] ++ joinSemi (z :: t) := by simp [joinSemi]
    rw [e]
    rcases List.mem_cons.mp h with rfl | h
    · simp [hc]
    · exact List.mem_append_right _ (mem_joinSemi h hc)

/-- **C108, violated**: names may contain line ends (only some characters are forbidden).  One in the name of a room makes more lines than the table has. -/
theorem C108_newline_violated (info : LayoutInfo) (tb : LayoutTestbed) (t : LayoutTarget) (o : ObserverDev) (c : CapeDev) (row : List (List Char)) (lines : List (List Char))
    (hr : RowFor info tb t o c row) (hm : joinSemi row ∈ lines) (hroom : '\n' ∈ (info.observer o).room.toList) : lines.length < (layoutText lines).count '\n' := by
  rw [count_layoutText]
  have hin : (info.observer o).room.toList ∈ row := by
    rw [hr]
    simp
  have hpos : 0 < (joinSemi row).count '\n' := List.count_pos_iff.mpr (mem_joinSemi hin hroom)
  have hle : (joinSemi row).count '\n' ≤ (lines.map (List.count '\n')).sum := List.le_sum_of_mem (List.mem_map.mpr ⟨_, hm, rfl⟩)
  omega

/-! ### The hypotheses are met -/

/-- A testbed with one observer. -/
def demoLayoutTb : LayoutTestbed := ⟨1, "tb", tbDev [obsDev 0 "sheep0" "a" (some (dev 1 0 none)) none]⟩
/-- Names and places. -/
def demoLayoutInfo : LayoutInfo := ⟨fun _ => "cape", fun _ => ⟨"r1", some "left; above the door", 51, 13⟩⟩

example : Caped demoLayoutTb ∧ InUse demoLayoutTb ⟨1, "t"⟩ ∧ ¬ InUse demoLayoutTb ⟨2, "u"⟩ := by
  refine ⟨?_, ⟨obsDev 0 "sheep0" "a" (some (dev 1 0 none)) none, by decide +kernel, rfl, ⟨_, rfl, rfl⟩, .A, _, rfl, rfl, rfl⟩, ?_⟩
  · intro o ho
    have : o = obsDev 0 "sheep0" "a" (some (dev 1 0 none)) none := by simpa [demoLayoutTb, tbDev] using ho
    subst this
    intro _
    decide +kernel
  · rintro ⟨o, ho, hc⟩
    have : o = obsDev 0 "sheep0" "a" (some (dev 1 0 none)) none := by simpa [demoLayoutTb, tbDev] using ho
    subst this
    obtain ⟨-, -, p, t, h1, h2, -⟩ := hc
    cases p
    · cases h1; cases h2
    · cases h1

example : (layoutScript demoLayoutInfo [⟨1, "t"⟩, ⟨2, "u"⟩] [demoLayoutTb]).1.map (fun l => (splitSemi l).length) = [13, 14] := by decide +kernel
example : [';', ' '] <:+: "left; above the door".toList := ⟨"left".toList, "above the door".toList, by decide +kernel⟩

/-- The default place; a name with a line end in it. -/
example : splitSemi (joinSemi [floatText (b64 51.026573), floatText (b64 13.723291)]) = ["51.026573".toList, "13.723291".toList] := by decide +kernel
example : NameOk "room\n1" ∧ NameOk "r1" ∧ NameOk "sheep0" := by unfold NameOk; decide +kernel

end Verif.Props
