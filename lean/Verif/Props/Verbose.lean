import Verif.Model.Verbose
import Mathlib.Tactic.Linarith
import Mathlib.Data.List.Induction

/-!
# C111: what is logged
-/

namespace Verif.Props
open Verif.Model

/-- A message of this importance (debug 10, info 20, warning 30, error 40) comes out of a logger of this level. -/
def MsgShown (level message : ℕ) : Prop := level ≤ message

/-- Some call asked for debug messages. -/
def AsksDebug (l : List LogStep) : Prop := ∃ n : ℤ, 3 ≤ n ∧ LogStep.increase n ∈ l

/-- What the calls of `Reader` said last about debug messages, if they said something. -/
def lastReader : List LogStep → Option Bool
  | [] => none
  | .reader (some v) :: t => some ((lastReader t).getD v)
  | _ :: t => lastReader t

theorem run_append (l : List LogStep) (x : LogStep) : LogState.run (l ++ [x]) = (LogState.run l).step x := by
  simp [LogState.run]

theorem imported_eq : LogState.imported = ⟨2, some 20, none, none, none, false⟩ := by
  simp [LogState.imported, raiseVerbose, LogState.fresh, setVerbose, verboseLevel, keepsSources]

theorem increase_three (s : LogState) {n : ℤ} (h3 : 3 ≤ n) (hs : s.level ≤ 3) : (raiseVerbose s n).level = 3 ∧ (raiseVerbose s n).core = some 10 := by
  have h : n ≥ s.level := by linarith
  have hm : min (max n 0) 3 = 3 := by rw [max_eq_left (by linarith)]; exact min_eq_right h3
  constructor
  · simp only [raiseVerbose, if_pos h, hm]
  · simp only [raiseVerbose, if_pos h, hm]; simp [setVerbose, verboseLevel]

/-- The invariant: two levels of the library, never back. -/
theorem run_level (l : List LogStep) :
    ((LogState.run l).level = 3 ∧ (LogState.run l).core = some 10 ∧ AsksDebug l) ∨ ((LogState.run l).level = 2 ∧ (LogState.run l).core = some 20 ∧ ¬ AsksDebug l) := by
  induction l using List.reverseRecOn with
  | nil =>
    right
    refine ⟨?_, ?_, ?_⟩
    · show LogState.imported.level = 2; rw [imported_eq]
    · show LogState.imported.core = some 20; rw [imported_eq]
    · rintro ⟨n, -, h⟩; cases h
  | append_singleton l x ih =>
    rw [run_append]
    have keep : (∀ n, x ≠ .increase n) → (AsksDebug (l ++ [x]) ↔ AsksDebug l) := by
      intro hx
      constructor
      · rintro ⟨n, hn, hm⟩
        rcases List.mem_append.mp hm with hm | hm
        · exact ⟨n, hn, hm⟩
        · exact absurd (List.mem_singleton.mp hm).symm (hx n)
      · rintro ⟨n, hn, hm⟩
        exact ⟨n, hn, List.mem_append_left _ hm⟩
    cases x with
    | reader v => rw [keep (by intro n h; cases h)]; exact ih
    | writer v => rw [keep (by intro n h; cases h)]; exact ih
    | start v => rw [keep (by intro n h; cases h)]; exact ih
    | increase n =>
      have hle : (LogState.run l).level ≤ 3 := by rcases ih with ⟨h, -, -⟩ | ⟨h, -, -⟩ <;> rw [h] <;> norm_num
      by_cases h3 : 3 ≤ n
      · left
        obtain ⟨h1, h2⟩ := increase_three (LogState.run l) h3 hle
        exact ⟨h1, h2, n, h3, by simp⟩
      · have hk : AsksDebug (l ++ [.increase n]) ↔ AsksDebug l := by
          constructor
          · rintro ⟨m, hm, hmem⟩
            rcases List.mem_append.mp hmem with hmem | hmem
            · exact ⟨m, hm, hmem⟩
            · have := List.mem_singleton.mp hmem
              injection this with this
              omega
          · rintro ⟨m, hm, hmem⟩
            exact ⟨m, hm, List.mem_append_left _ hmem⟩
        rw [hk]
        rcases ih with ⟨h1, h2, h4⟩ | ⟨h1, h2, h4⟩
        · left
          have hn : ¬ n ≥ (LogState.run l).level := by rw [h1]; exact h3
          refine ⟨?_, ?_, h4⟩
          · simp only [LogState.step, raiseVerbose, if_neg hn]; exact h1
          · simp only [LogState.step, raiseVerbose, if_neg hn]; exact h2
        · right
          by_cases hn : n ≥ (LogState.run l).level
          · have h22 : n = 2 := by rw [h1] at hn; omega
            subst h22
            refine ⟨?_, ?_, h4⟩
            · simp only [LogState.step, raiseVerbose, if_pos hn]; decide
            · simp only [LogState.step, raiseVerbose, if_pos hn]; rfl
          · refine ⟨?_, ?_, h4⟩
            · simp only [LogState.step, raiseVerbose, if_neg hn]; exact h1
            · simp only [LogState.step, raiseVerbose, if_neg hn]; exact h2

theorem run_reader (l : List LogStep) : (LogState.run l).reader = (lastReader l).map (fun v => if v then 10 else 20) := by
  have key : ∀ (l : List LogStep) (s : LogState), (l.foldl LogState.step s).reader = ((lastReader l).map (fun v => if v then 10 else 20)).or s.reader := by
    intro l
    induction l with
    | nil => intro s; rfl
    | cons x t ih =>
      intro s
      rw [List.foldl_cons, ih]
      cases x with
      | increase n =>
        have : (s.step (.increase n)).reader = s.reader := by
          simp only [LogState.step, raiseVerbose]; split_ifs <;> rfl
        rw [this]; rfl
      | writer v => rfl
      | start v => rfl
      | reader v =>
        cases v with
        | none => rfl
        | some b =>
          simp only [lastReader]
          cases h : lastReader t with
          | none => cases b <;> simp [LogState.step, ownLevel]
          | some c => simp
  rw [LogState.run, key]
  have : LogState.imported.reader = none := by rw [imported_eq]
  rw [this]; simp

/-- Whatever a program does, the messages of the library from info on are shown; debug messages are shown if and only if some call asked for them. -/
theorem C111_level (l : List LogStep) :
    (∀ m, 20 ≤ m → MsgShown ((LogState.run l).core.getD 30) m) ∧ (MsgShown ((LogState.run l).core.getD 30) 10 ↔ AsksDebug l) ∧
      ((LogState.run l).level = 2 ∨ (LogState.run l).level = 3) := by
  rcases run_level l with ⟨h1, h2, h3⟩ | ⟨h1, h2, h3⟩
  · rw [h2]
    refine ⟨fun m hm => ?_, ⟨fun _ => h3, fun _ => ?_⟩, Or.inr h1⟩ <;> simp only [MsgShown, Option.getD_some] <;> omega
  · rw [h2]
    refine ⟨fun m hm => hm, ⟨fun h => ?_, fun h => absurd h h3⟩, Or.inl h1⟩
    simp only [MsgShown, Option.getD_some] at h; omega

/-- No step makes the library quieter. -/
theorem C111_never_quieter (l : List LogStep) (x : LogStep) (m : ℕ) (h : MsgShown ((LogState.run l).core.getD 30) m) : MsgShown ((LogState.run (l ++ [x])).core.getD 30) m := by
  rcases run_level l with ⟨h1, h2, h3⟩ | ⟨h1, h2, h3⟩
  · rcases run_level (l ++ [x]) with ⟨-, g2, -⟩ | ⟨-, -, g3⟩
    · rw [g2]; rw [h2] at h; exact h
    · exact absurd (by obtain ⟨n, hn, hm⟩ := h3; exact ⟨n, hn, List.mem_append_left _ hm⟩) g3
  · rw [h2] at h
    rcases run_level (l ++ [x]) with ⟨-, g2, -⟩ | ⟨-, g2, -⟩
    · rw [g2]; simp only [MsgShown, Option.getD_some] at h ⊢; omega
    · rw [g2]; exact h

/-- Debug messages of readers are shown if the reader opened last said so; if none said anything, if some call asked the library for them. -/
theorem C111_readers (l : List LogStep) :
    MsgShown (effective (LogState.run l).reader (LogState.run l).core) 10 ↔ (lastReader l = some true ∨ lastReader l = none ∧ AsksDebug l) := by
  rw [run_reader]
  cases h : lastReader l with
  | none =>
    have := (C111_level l).2.1
    simp only [Option.map_none, effective, this]
    simp
  | some b => cases b <;> simp [effective, MsgShown]

/-- Numbers and levels: more verbose is never quieter. -/
theorem C111_numbers {a b : ℤ} (ha : 0 ≤ a) (hab : a ≤ b) : ∃ x y, verboseLevel a = some x ∧ verboseLevel b = some y ∧ y ≤ x := by
  have full : ∀ n : ℤ, 0 ≤ n → (n = 0 ∧ verboseLevel n = some 40) ∨ (n = 1 ∧ verboseLevel n = some 30) ∨ (n = 2 ∧ verboseLevel n = some 20) ∨ (3 ≤ n ∧ verboseLevel n = some 10) := by
    intro n hn
    rcases (by omega : n = 0 ∨ n = 1 ∨ n = 2 ∨ 3 ≤ n) with h | h | h | h
    · subst h; left; exact ⟨rfl, rfl⟩
    · subst h; right; left; exact ⟨rfl, rfl⟩
    · subst h; right; right; left; exact ⟨rfl, rfl⟩
    · right; right; right
      refine ⟨h, ?_⟩
      unfold verboseLevel
      rw [if_neg (by omega), if_neg (by omega), if_neg (by omega), if_pos (by omega)]
  rcases full a ha with ⟨h1, e1⟩ | ⟨h1, e1⟩ | ⟨h1, e1⟩ | ⟨h1, e1⟩ <;> rcases full b (by omega) with ⟨h2, e2⟩ | ⟨h2, e2⟩ | ⟨h2, e2⟩ | ⟨h2, e2⟩ <;>
    exact ⟨_, _, e1, e2, by omega⟩

/-- Not so: readers share their logger.  Whatever happened before, opening another reader that is not verbose silences the debug messages of all. -/
theorem C111_shared_violated (l : List LogStep) :
    ¬ MsgShown (effective (LogState.run (l ++ [.reader (some true), .reader (some false)])).reader (LogState.run (l ++ [.reader (some true), .reader (some false)])).core) 10 := by
  have : LogState.run (l ++ [.reader (some true), .reader (some false)]) = ((LogState.run l).step (.reader (some true))).step (.reader (some false)) := by
    simp [LogState.run]
  rw [this]
  simp [LogState.step, ownLevel, effective, MsgShown]

/-- Not so: the option `-v` of the command line, "switch from info- to debug-level", has no effect on the files that are opened: with it or without it, no command shows debug messages of readers
or of the library. -/
theorem C111_option_violated (verbose : Bool) :
    let s := LogState.run [.start verbose]
    commandOpens s = .reader (some false) ∧ ¬ MsgShown (effective (s.step (commandOpens s)).reader (s.step (commandOpens s)).core) 10 ∧ ¬ MsgShown (s.core.getD 30) 10 := by
  have h : (LogState.run [.start verbose]).level = 2 ∧ (LogState.run [.start verbose]).core = some 20 := by
    rcases run_level [.start verbose] with ⟨-, -, n, -, h⟩ | ⟨h1, h2, -⟩
    · simp at h
    · exact ⟨h1, h2⟩
  have ho : commandOpens (LogState.run [.start verbose]) = .reader (some false) := by
    unfold commandOpens; rw [h.1]; simp
  refine ⟨ho, ?_, ?_⟩
  · rw [ho]; simp [LogState.step, ownLevel, effective, MsgShown]
  · rw [h.2]; simp [MsgShown]

/-- The option works for the messages of the commands themselves: debug messages with it, info without. -/
theorem C111_option_partial (l : List LogStep) (verbose : Bool) :
    MsgShown ((LogState.run (l ++ [.start verbose])).cli.getD 30) 20 ∧ (MsgShown ((LogState.run (l ++ [.start verbose])).cli.getD 30) 10 ↔ verbose = true) := by
  rw [run_append]
  cases verbose <;> simp [LogState.step, setVerbose, verboseLevel, MsgShown]

/-- Not so: the sources of records are switched off by the import and never come back, not even when debugging. -/
theorem C111_sources_violated (l : List LogStep) : (LogState.run l).sources = false := by
  induction l using List.reverseRecOn with
  | nil => show LogState.imported.sources = false; rw [imported_eq]
  | append_singleton l x ih =>
    rw [run_append]
    cases x with
    | reader v => exact ih
    | writer v => exact ih
    | start v => simp only [LogState.step, keepsSources, ih]; split_ifs <;> rfl
    | increase n =>
      simp only [LogState.step, raiseVerbose]
      split_ifs
      · simp only [keepsSources, ih]; split_ifs <;> rfl
      · exact ih

/-- Not so: a negative number sets no level. -/
theorem C111_negative_violated (old : Option ℕ) {n : ℤ} (hn : n < 0) : setVerbose old n = old := by
  unfold setVerbose verboseLevel
  rw [if_neg (by omega), if_neg (by omega), if_neg (by omega), if_neg (by omega)]

example : AsksDebug [.reader none, .increase 7] := ⟨7, by norm_num, by simp⟩
example : MsgShown (effective (LogState.run [.increase 3, .reader none]).reader (LogState.run [.increase 3, .reader none]).core) 10 :=
  (C111_readers _).mpr (Or.inr ⟨rfl, 3, le_refl _, by simp⟩)

end Verif.Props
