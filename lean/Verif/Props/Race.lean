import Verif.Model.Race
import Verif.Props.Reports

/-!
# C115: writers that run at the same time
-/

namespace Verif.Props
open Verif.Py Verif.Model

/-- The directory before any writer is opened. -/
def Idle (w : WWorld) : Prop := ∀ i, w.phase i = .start

/-- Specification: the paths that a writer can end up with. -/
def mayUse (name n : Name) : Prop := n = name ∨ ∃ k, n = candidate (splitName name).1 (splitName name).2 k

/-- The file that a program works on or has worked on. -/
def _root_.Verif.Model.WPhase.path : WPhase → Option Name
  | .chosen n => some n
  | .writing n => some n
  | .closed n => some n
  | _ => none

theorem race_append (locks : Bool) (name : ℕ → Name) (w : WWorld) (a b : List (ℕ × Option ℤ)) : w.run locks name (a ++ b) = (w.run locks name a).run locks name b := by
  unfold WWorld.run; rw [List.foldl_append]

theorem race_cons (locks : Bool) (name : ℕ → Name) (w : WWorld) (e : ℕ × Option ℤ) (b : List (ℕ × Option ℤ)) : w.run locks name (e :: b) = (w.step locks name e.1 e.2).run locks name b := rfl

/-- Other programs stay as they are. -/
theorem step_other (locks : Bool) (name : ℕ → Name) (w : WWorld) (i j : ℕ) (x : Option ℤ) (h : j ≠ i) : (w.step locks name i x).phase j = w.phase j := by
  unfold WWorld.step
  cases hp : w.phase i with
  | start => simp [h]
  | numbering k => simp [h]
  | chosen n =>
    simp only
    cases w.files n with
    | none => simp [h]
    | some f => simp only; split_ifs <;> simp [h]
  | writing n =>
    simp only
    cases w.files n with
    | none => rfl
    | some f => cases x <;> simp [h]
  | closed n => rfl
  | failed => rfl

/-- A step changes only the file that the program works on. -/
theorem step_files (locks : Bool) (name : ℕ → Name) (w : WWorld) (i : ℕ) (x : Option ℤ) (m : Name) (h : (w.phase i).path ≠ some m) : (w.step locks name i x).files m = w.files m := by
  unfold WWorld.step
  cases hp : w.phase i with
  | start => rfl
  | numbering k => rfl
  | chosen n =>
    have hm : m ≠ n := by rintro rfl; rw [hp] at h; exact h rfl
    simp only
    cases w.files n with
    | none => simp [hm]
    | some f => simp only; split_ifs <;> simp [hm]
  | writing n =>
    have hm : m ≠ n := by rintro rfl; rw [hp] at h; exact h rfl
    simp only
    cases w.files n with
    | none => rfl
    | some f => cases x <;> simp [hm]
  | closed n => rfl
  | failed => rfl

/-- The path of a program is kept, or it was just found not to exist. -/
theorem step_path (locks : Bool) (name : ℕ → Name) (w : WWorld) (i : ℕ) (x : Option ℤ) (m : Name) (h : ((w.step locks name i x).phase i).path = some m) :
    (w.phase i).path = some m ∨ (w.files m = none ∧ mayUse (name i) m ∧ (w.step locks name i x).phase i = .chosen m ∧ (w.step locks name i x).files = w.files) := by
  unfold WWorld.step at h ⊢
  cases hp : w.phase i with
  | start =>
    rw [hp] at h
    simp only [if_true] at h ⊢
    by_cases he : (w.files (name i)).isSome = true
    · rw [if_pos he] at h; cases h
    · rw [if_neg he] at h ⊢
      right
      cases h
      refine ⟨by simpa using he, Or.inl rfl, rfl, ?_⟩; trivial
  | numbering k =>
    rw [hp] at h
    simp only [if_true] at h ⊢
    by_cases he : (w.files (candidate (splitName (name i)).1 (splitName (name i)).2 k)).isSome = true
    · rw [if_pos he] at h; cases h
    · rw [if_neg he] at h ⊢
      right
      cases h
      refine ⟨by simpa using he, Or.inr ⟨k, rfl⟩, rfl, ?_⟩; trivial
  | chosen n =>
    rw [hp] at h
    left
    simp only at h
    cases hf : w.files n with
    | none => rw [hf] at h; simp only [if_true, WPhase.path] at h ⊢; exact h
    | some f =>
      rw [hf] at h
      simp only at h
      split_ifs at h <;> simp only [if_true, WPhase.path] at h ⊢
      · cases h
      · exact h
  | writing n =>
    rw [hp] at h
    left
    simp only at h
    cases hf : w.files n with
    | none => rw [hf] at h; simp only [hp] at h; exact h
    | some f =>
      rw [hf] at h
      cases x with
      | none => simpa [WPhase.path] using h
      | some v => simp only [hp] at h; exact h
  | closed n => rw [hp] at h; simp only [hp] at h; exact Or.inl h
  | failed => rw [hp] at h; simp only [hp] at h; exact Or.inl h

/-- Files do not vanish. -/
theorem step_exists (locks : Bool) (name : ℕ → Name) (w : WWorld) (i : ℕ) (x : Option ℤ) (m : Name) (h : (w.files m).isSome) : ((w.step locks name i x).files m).isSome := by
  by_cases hp : (w.phase i).path = some m
  · unfold WWorld.step
    cases hph : w.phase i with
    | start => exact h
    | numbering k => exact h
    | chosen n =>
      rw [hph] at hp; cases hp
      simp only
      cases hf : w.files m with
      | none => rw [hf] at h; cases h
      | some f => simp only; split_ifs <;> simp [hf]
    | writing n =>
      rw [hph] at hp; cases hp
      simp only
      cases hf : w.files m with
      | none => rw [hf] at h; cases h
      | some f => cases x <;> simp
    | closed n => exact h
    | failed => exact h
  · rw [step_files locks name w i x m hp]; exact h

/-- **C115, earlier recordings.**  Files that were there before writers are opened with default options stay as they are, whatever the writers are asked for and however their steps interleave. -/
theorem C115_earlier (locks : Bool) (name : ℕ → Name) (w : WWorld) (hw : Idle w) (schedule : List (ℕ × Option ℤ)) (m : Name) (f : WFile) (hf : w.files m = some f) :
    (w.run locks name schedule).files m = some f := by
  have inv : ∀ (schedule : List (ℕ × Option ℤ)) (w : WWorld), (∀ i, (w.phase i).path ≠ some m) → w.files m = some f → (w.run locks name schedule).files m = some f := by
    intro schedule
    induction schedule with
    | nil => intro w _ h; exact h
    | cons e rest ih =>
      intro w hp hf
      rw [race_cons]
      have hf' : (w.step locks name e.1 e.2).files m = some f := by rw [step_files locks name w e.1 e.2 m (hp e.1)]; exact hf
      refine ih _ (fun i hi => ?_) hf'
      by_cases h : i = e.1
      · subst h
        rcases step_path locks name w e.1 e.2 m hi with h | ⟨h, _⟩
        · exact hp _ h
        · rw [hf] at h; cases h
      · rw [step_other locks name w e.1 i e.2 h] at hi; exact hp i hi
  exact inv schedule w (fun i h => by rw [hw i] at h; cases h) hf

/-- **C115, different paths.**  If no path that program `i` can end up with is one of another program, then everything is for `i` as if it ran alone: what it has done, and the files it can end up with. -/
theorem C115_apart (locks : Bool) (name : ℕ → Name) (w : WWorld) (hw : Idle w) (i : ℕ) (hap : ∀ j ≠ i, ∀ n, mayUse (name i) n → ¬ mayUse (name j) n) (schedule : List (ℕ × Option ℤ)) :
    (w.run locks name schedule).phase i = (w.run locks name (schedule.filter (fun e => e.1 = i))).phase i ∧
    ∀ n, mayUse (name i) n → (w.run locks name schedule).files n = (w.run locks name (schedule.filter (fun e => e.1 = i))).files n := by
  have inv : ∀ (schedule : List (ℕ × Option ℤ)) (a b : WWorld), (∀ j n, (a.phase j).path = some n → mayUse (name j) n) → a.phase i = b.phase i → (∀ n, mayUse (name i) n → a.files n = b.files n) →
      (a.run locks name schedule).phase i = (b.run locks name (schedule.filter (fun e => e.1 = i))).phase i ∧
      ∀ n, mayUse (name i) n → (a.run locks name schedule).files n = (b.run locks name (schedule.filter (fun e => e.1 = i))).files n := by
    intro schedule
    induction schedule with
    | nil => intro a b _ hp hf; exact ⟨hp, hf⟩
    | cons e rest ih =>
      intro a b hm hp hf
      obtain ⟨j, x⟩ := e
      have hm' : ∀ j' n, ((a.step locks name j x).phase j').path = some n → mayUse (name j') n := by
        intro j' n h
        by_cases hj : j' = j
        · subst hj
          rcases step_path locks name a j' x n h with h | ⟨_, h, _⟩
          · exact hm _ _ h
          · exact h
        · rw [step_other locks name a j j' x hj] at h; exact hm _ _ h
      rw [race_cons]
      by_cases hji : j = i
      · subst hji
        rw [List.filter_cons_of_pos (by simp), race_cons]
        have hstep : (a.step locks name j x).phase j = (b.step locks name j x).phase j ∧ ∀ n, mayUse (name j) n → (a.step locks name j x).files n = (b.step locks name j x).files n := by
          have hpath := hm j
          unfold WWorld.step
          rw [← hp]
          cases hph : a.phase j with
          | start => simp only [if_true]; rw [← hf _ (Or.inl rfl)]; exact ⟨rfl, hf⟩
          | numbering k => simp only [if_true]; rw [← hf _ (Or.inr ⟨k, rfl⟩)]; exact ⟨rfl, hf⟩
          | chosen n =>
            have hn := hpath n (by rw [hph]; rfl)
            simp only
            rw [← hf n hn]
            cases hfn : a.files n with
            | none => exact ⟨by simp, fun m hm => by simp [hf m hm]⟩
            | some f =>
              simp only
              split_ifs
              · exact ⟨by simp, hf⟩
              · exact ⟨by simp, fun m hm => by simp [hf m hm]⟩
          | writing n =>
            have hn := hpath n (by rw [hph]; rfl)
            simp only
            rw [← hf n hn]
            cases hfn : a.files n with
            | none => exact ⟨hp, hf⟩
            | some f =>
              cases x with
              | none => exact ⟨by simp, fun m hm => by simp [hf m hm]⟩
              | some v => exact ⟨hp, fun m hm => by simp [hf m hm]⟩
          | closed n => exact ⟨hp, hf⟩
          | failed => exact ⟨hp, hf⟩
        exact ih _ _ hm' hstep.1 hstep.2
      · rw [List.filter_cons_of_neg (by simpa using hji)]
        refine ih _ b hm' ?_ ?_
        · rw [step_other locks name a j i x (Ne.symm hji)]; exact hp
        · intro n hn
          rw [step_files locks name a j x n]
          · exact hf n hn
          · intro h; exact hap j hji n hn (hm j n h)
  exact inv schedule w w (fun j n h => by rw [hw j] at h; cases h) rfl (fun _ _ => rfl)

/-- Paths with one dot and different beginnings are apart: "a.h5" and "b.h5". -/
theorem C115_beginnings (s t e f : Name) (hs : '.' ∉ s) (ht : '.' ∉ t) (he : '.' ∉ e) (hf : '.' ∉ f) (hs0 : s ≠ []) (ht0 : t ≠ []) (he0 : e ≠ []) (hf0 : f ≠ []) (hst : s ≠ t) (n : Name) :
    mayUse (s ++ '.' :: e) n → ¬ mayUse (t ++ '.' :: f) n := by
  have first : ∀ (x g : Name), '.' ∉ x → '.' ∉ g → x ≠ [] → g ≠ [] → mayUse (x ++ '.' :: g) n → n.takeWhile (fun c => c ≠ '.') = x := by
    intro x g hx hg hx0 hg0 h
    have key : ∀ r : Name, (x ++ '.' :: r).takeWhile (fun c => decide (c ≠ '.')) = x := by
      intro r
      rw [List.takeWhile_append_of_pos (by intro c hc; simp; rintro rfl; exact hx hc)]
      simp
    rcases h with rfl | ⟨k, rfl⟩
    · exact key g
    · rw [splitName_eq x g hx0 hg0 hg]
      have hnd : splitName x = (x, []) := by
        rcases splitName_spec x with h | ⟨y, z, _, _, _, h, _⟩
        · exact h
        · exact absurd (by rw [h]; simp) hx
      unfold candidate withSuffix
      rw [hnd]
      exact key _
  intro h1 h2
  exact hst ((first s e hs he hs0 he0 h1).symm.trans (first t f ht hf ht0 hf0 h2))

/-- Specification: nothing happens between the look at the directory that finds a free path and opening it. -/
def Prompt (locks : Bool) (name : ℕ → Name) (w : WWorld) (schedule : List (ℕ × Option ℤ)) : Prop :=
  ∀ a e b, schedule = a ++ e :: b → ∀ j n, (w.run locks name a).phase j = .chosen n → e.1 = j

/-- What holds along prompt schedules. -/
structure Orderly (w : WWorld) : Prop where
  apart : ∀ i j n, i ≠ j → (w.phase i).path = some n → (w.phase j).path ≠ some n
  own : ∀ i n, w.phase i = .writing n ∨ w.phase i = .closed n → ∃ f, w.files n = some f ∧ ∀ e ∈ f.content, e.1 = i
  free : ∀ i n, w.phase i = .chosen n → w.files n = none

theorem step_chosen (locks : Bool) (name : ℕ → Name) (w : WWorld) (i : ℕ) (x : Option ℤ) (m : Name) (h : (w.step locks name i x).phase i = .chosen m) :
    w.files m = none ∧ (w.step locks name i x).files = w.files := by
  unfold WWorld.step at h ⊢
  cases hp : w.phase i with
  | start =>
    rw [hp] at h
    simp only [if_true] at h ⊢
    by_cases he : (w.files (name i)).isSome = true
    · rw [if_pos he] at h; cases h
    · rw [if_neg he] at h; cases h; exact ⟨by simpa using he, trivial⟩
  | numbering k =>
    rw [hp] at h
    simp only [if_true] at h ⊢
    by_cases he : (w.files (candidate (splitName (name i)).1 (splitName (name i)).2 k)).isSome = true
    · rw [if_pos he] at h; cases h
    · rw [if_neg he] at h; cases h; exact ⟨by simpa using he, trivial⟩
  | chosen n =>
    rw [hp] at h
    simp only at h
    cases hf : w.files n with
    | none => rw [hf] at h; simp at h
    | some f => rw [hf] at h; simp only at h; split_ifs at h <;> simp at h
  | writing n =>
    rw [hp] at h
    simp only at h
    cases hf : w.files n with
    | none => rw [hf] at h; simp only [hp] at h; cases h
    | some f =>
      rw [hf] at h
      cases x with
      | none => simp at h
      | some v => simp only [hp] at h; cases h
  | closed n => rw [hp] at h; simp only [hp] at h; cases h
  | failed => rw [hp] at h; simp only [hp] at h; cases h

theorem orderly_step (locks : Bool) (name : ℕ → Name) (w : WWorld) (j : ℕ) (x : Option ℤ) (h : Orderly w) (hp : ∀ i n, w.phase i = .chosen n → j = i) : Orderly (w.step locks name j x) := by
  have hex : ∀ i n, i ≠ j → (w.phase i).path = some n → (w.files n).isSome := by
    intro i n hij hn
    cases hph : w.phase i with
    | start => rw [hph] at hn; cases hn
    | numbering k => rw [hph] at hn; cases hn
    | chosen m => exact absurd (hp i m hph).symm hij
    | writing m => rw [hph] at hn; cases hn; obtain ⟨f, hf, _⟩ := h.own i n (Or.inl hph); rw [hf]; rfl
    | closed m => rw [hph] at hn; cases hn; obtain ⟨f, hf, _⟩ := h.own i n (Or.inr hph); rw [hf]; rfl
    | failed => rw [hph] at hn; cases hn
  have hnew : ∀ i n, i ≠ j → (w.phase i).path = some n → ((w.step locks name j x).phase j).path ≠ some n := by
    intro i n hij hi hj
    rcases step_path locks name w j x n hj with h1 | ⟨h1, _⟩
    · exact h.apart i j n hij hi h1
    · have := hex i n hij hi; rw [h1] at this; cases this
  refine ⟨?_, ?_, ?_⟩
  · intro a b n hab ha hb
    by_cases haj : a = j
    · subst haj
      rw [step_other locks name w a b x (Ne.symm hab)] at hb
      exact hnew b n (Ne.symm hab) hb ha
    · rw [step_other locks name w j a x haj] at ha
      by_cases hbj : b = j
      · subst hbj; exact hnew a n hab ha hb
      · rw [step_other locks name w j b x hbj] at hb
        exact h.apart a b n hab ha hb
  · intro i n hi
    by_cases hij : i = j
    · subst hij
      cases hph : w.phase i with
      | start =>
        exfalso
        unfold WWorld.step at hi
        rw [hph] at hi
        simp only [if_true] at hi
        split_ifs at hi <;> simp at hi
      | numbering k =>
        exfalso
        unfold WWorld.step at hi
        rw [hph] at hi
        simp only [if_true] at hi
        split_ifs at hi <;> simp at hi
      | chosen m =>
        have hfree := h.free i m hph
        unfold WWorld.step at hi ⊢
        rw [hph] at hi ⊢
        simp only [hfree, if_true] at hi ⊢
        have : n = m := by rcases hi with hi | hi <;> cases hi; rfl
        subst this
        exact ⟨⟨[], 1⟩, by simp, by simp⟩
      | writing m =>
        obtain ⟨f, hf, hown⟩ := h.own i m (Or.inl hph)
        unfold WWorld.step at hi ⊢
        rw [hph] at hi ⊢
        cases x with
        | none =>
          simp only [hf, if_true] at hi ⊢
          have : n = m := by rcases hi with hi | hi <;> cases hi; rfl
          subst this
          exact ⟨_, if_pos rfl, hown⟩
        | some v =>
          simp only [hf, hph] at hi ⊢
          have : n = m := by rcases hi with hi | hi <;> cases hi; rfl
          subst this
          refine ⟨_, if_pos rfl, ?_⟩
          intro e he
          rcases List.mem_append.mp he with he | he
          · exact hown e he
          · rw [List.mem_singleton.mp he]
      | closed m =>
        have hs : w.step locks name i x = w := by unfold WWorld.step; rw [hph]
        rw [hs] at hi ⊢
        exact h.own i n hi
      | failed =>
        have hs : w.step locks name i x = w := by unfold WWorld.step; rw [hph]
        rw [hs] at hi ⊢
        exact h.own i n hi
    · rw [step_other locks name w j i x hij] at hi
      obtain ⟨f, hf, hown⟩ := h.own i n hi
      refine ⟨f, ?_, hown⟩
      rw [step_files locks name w j x n]
      · exact hf
      · apply h.apart i j n hij
        rcases hi with hi | hi <;> rw [hi] <;> rfl
  · intro i n hi
    by_cases hij : i = j
    · subst hij
      obtain ⟨h1, h2⟩ := step_chosen locks name w i x n hi
      rw [h2]; exact h1
    · rw [step_other locks name w j i x hij] at hi
      exact absurd (hp i n hi).symm hij

theorem orderly_run (locks : Bool) (name : ℕ → Name) (w : WWorld) (hw : Idle w) (schedule : List (ℕ × Option ℤ)) (hp : Prompt locks name w schedule) : Orderly (w.run locks name schedule) := by
  induction schedule using List.reverseRecOn with
  | nil =>
    refine ⟨fun i j n _ h => ?_, fun i n h => ?_, fun i n h => ?_⟩
    · change (w.phase i).path = some n at h; rw [hw i] at h; cases h
    · change w.phase i = _ ∨ w.phase i = _ at h; rw [hw i] at h; rcases h with h | h <;> cases h
    · change w.phase i = _ at h; rw [hw i] at h; cases h
  | append_singleton l e ih =>
    have hl : Orderly (w.run locks name l) := ih (fun a e' b hab j n h => hp a e' (b ++ [e]) (by rw [hab]; simp) j n h)
    rw [race_append]
    exact orderly_step locks name _ e.1 e.2 hl (fun i n h => hp l e [] rfl i n h)

/-- **C115, opening without delay.**  If nothing comes between finding a free path and opening it, then, whatever the writers are asked for: no two programs use the same file, a file holds
only samples of the program that writes or wrote it, and a recording that was closed stays as it is. -/
theorem C115_prompt (locks : Bool) (name : ℕ → Name) (w : WWorld) (hw : Idle w) (a b : List (ℕ × Option ℤ)) (hp : Prompt locks name w (a ++ b)) :
    (∀ i j n, i ≠ j → ((w.run locks name a).phase i).path = some n → ((w.run locks name a).phase j).path ≠ some n) ∧
    (∀ i n, (w.run locks name a).phase i = .writing n ∨ (w.run locks name a).phase i = .closed n → ∃ f, (w.run locks name a).files n = some f ∧ ∀ e ∈ f.content, e.1 = i) ∧
    ∀ i n, (w.run locks name a).phase i = .closed n → (w.run locks name (a ++ b)).phase i = .closed n ∧ (w.run locks name (a ++ b)).files n = (w.run locks name a).files n := by
  have hpa : Prompt locks name w a := fun c e d hcd j n h => hp c e (d ++ b) (by rw [hcd]; simp) j n h
  have ho := orderly_run locks name w hw a hpa
  refine ⟨ho.apart, ho.own, ?_⟩
  intro i n hi
  clear hpa
  induction b generalizing a with
  | nil => simpa using hi
  | cons e rest ih =>
    have hsplit : a ++ e :: rest = (a ++ [e]) ++ rest := by simp
    rw [hsplit] at hp ⊢
    have hae : Prompt locks name w (a ++ [e]) := fun c e' d hcd j n h => hp c e' (d ++ rest) (by rw [hcd]; simp) j n h
    have hrun : w.run locks name (a ++ [e]) = (w.run locks name a).step locks name e.1 e.2 := by rw [race_append]; rfl
    have hstep : (w.run locks name (a ++ [e])).phase i = .closed n ∧ (w.run locks name (a ++ [e])).files n = (w.run locks name a).files n := by
      rw [hrun]
      by_cases h : i = e.1
      · subst h
        have hs : (w.run locks name a).step locks name e.1 e.2 = w.run locks name a := by unfold WWorld.step; rw [hi]
        rw [hs]; exact ⟨hi, rfl⟩
      · refine ⟨by rw [step_other locks name _ e.1 i e.2 h]; exact hi, ?_⟩
        apply step_files
        exact ho.apart i e.1 n h (by rw [hi]; rfl)
    obtain ⟨h1, h2⟩ := ih (a ++ [e]) hp (orderly_run locks name w hw _ hae) hstep.1
    exact ⟨h1, h2.trans hstep.2⟩

/-- **C115, violated: writers for the same path at the same time.**  One looks and finds the path free; another one looks, too, opens it, records a sample and closes it; then the first one opens
it and the recording of the other one is gone - also if files that are open are locked. -/
theorem C115_race_violated (locks : Bool) : ∃ (name : ℕ → Name) (w : WWorld) (a b : List (ℕ × Option ℤ)) (n : Name), Idle w ∧
    (w.run locks name a).phase 1 = .closed n ∧ (w.run locks name a).files n = some ⟨[(1, 5)], 0⟩ ∧ (w.run locks name (a ++ b)).files n = some ⟨[], 1⟩ := by
  refine ⟨fun _ => "rec.h5".toList, ⟨fun _ => none, fun _ => .start⟩, [(0, none), (1, none), (1, none), (1, some 5), (1, none)], [(0, none)], "rec.h5".toList, fun _ => rfl, ?_, ?_, ?_⟩ <;>
    cases locks <;> decide +kernel

/-- The path is kept once it is chosen. -/
theorem step_keep (locks : Bool) (name : ℕ → Name) (w : WWorld) (i : ℕ) (x : Option ℤ) (m : Name) (h : (w.phase i).path = some m) :
    ((w.step locks name i x).phase i).path = some m ∨ (w.step locks name i x).phase i = .failed := by
  unfold WWorld.step
  cases hp : w.phase i with
  | start => rw [hp] at h; cases h
  | numbering k => rw [hp] at h; cases h
  | chosen n =>
    rw [hp] at h; cases h
    simp only
    cases w.files m with
    | none => simp [WPhase.path]
    | some f => simp only; split_ifs <;> simp [WPhase.path]
  | writing n =>
    rw [hp] at h; cases h
    simp only
    cases w.files m with
    | none => simp [hp, WPhase.path]
    | some f => cases x <;> simp [hp, WPhase.path]
  | closed n => rw [hp] at h; cases h; simp [hp, WPhase.path]
  | failed => rw [hp] at h; cases h

/-- **C115, alone.**  A writer that is alone ends up with the path of C38. -/
theorem C115_alone (locks : Bool) (name : ℕ → Name) (w : WWorld) (hw : Idle w) (existing : List Name) (hex : ∀ m, m ∈ existing ↔ (w.files m).isSome = true) (i : ℕ)
    (steps : List (Option ℤ)) (n : Name) (hn : ((w.run locks name (steps.map (fun x => (i, x)))).phase i).path = some n) :
    choosePath existing (fun _ => true) false false (name i) steps.length = .ok (some n) := by
  have keep : ∀ (steps : List (Option ℤ)) (w : WWorld) (m : Name), (w.phase i).path = some m ∨ w.phase i = .failed → ((w.run locks name (steps.map (fun x => (i, x)))).phase i).path = some n →
      (w.phase i).path = some n := by
    intro steps
    induction steps with
    | nil => intro w m _ h; exact h
    | cons x t ih =>
      intro w m hm h
      rw [List.map_cons, race_cons] at h
      rcases hm with hm | hm
      · have := ih _ m (step_keep locks name w i x m hm) h
        rcases step_keep locks name w i x m hm with h' | h'
        · rw [h'] at this; rw [hm]; exact this
        · rw [h'] at this; cases this
      · have hs : w.step locks name i x = w := by unfold WWorld.step; rw [hm]
        simp only [hs] at h
        exact ih w m (Or.inr hm) h
  have loop : ∀ (steps : List (Option ℤ)) (w : WWorld) (k : ℕ), (∀ m, m ∈ existing ↔ (w.files m).isSome = true) → w.phase i = .numbering k →
      ((w.run locks name (steps.map (fun x => (i, x)))).phase i).path = some n → ∀ fuel ≥ steps.length, uniqueLoop existing (splitName (name i)).1 (splitName (name i)).2 fuel k = some n := by
    intro steps
    induction steps with
    | nil => intro w k _ hk h; simp only [List.map_nil] at h; change (w.phase i).path = some n at h; rw [hk] at h; cases h
    | cons x t ih =>
      intro w k hex hk h fuel hfuel
      rw [List.map_cons, race_cons] at h
      obtain ⟨fuel, rfl⟩ : ∃ f, fuel = f + 1 := ⟨fuel - 1, by simp at hfuel; omega⟩
      rw [uniqueLoop]
      by_cases hc : candidate (splitName (name i)).1 (splitName (name i)).2 k ∈ existing
      · rw [if_pos hc]
        have hs : w.step locks name i x = { w with phase := fun j => if j = i then .numbering (k + 1) else w.phase j } := by
          unfold WWorld.step; rw [hk]; simp [(hex _).mp hc]
        rw [hs] at h
        exact ih { w with phase := fun j => if j = i then .numbering (k + 1) else w.phase j } (k + 1) hex (by simp) h fuel (by simp at hfuel; omega)
      · rw [if_neg hc]
        have hs : w.step locks name i x = { w with phase := fun j => if j = i then .chosen (candidate (splitName (name i)).1 (splitName (name i)).2 k) else w.phase j } := by
          unfold WWorld.step; rw [hk]
          have : ¬ (w.files (candidate (splitName (name i)).1 (splitName (name i)).2 k)).isSome = true := fun h => hc ((hex _).mpr h)
          simp only [if_neg this]
        rw [hs] at h
        have := keep t _ (candidate (splitName (name i)).1 (splitName (name i)).2 k) (Or.inl (by simp [WPhase.path])) h
        simpa [WPhase.path] using this
  cases steps with
  | nil => simp only [List.map_nil] at hn; change (w.phase i).path = some n at hn; rw [hw i] at hn; cases hn
  | cons x t =>
    rw [List.map_cons, race_cons] at hn
    unfold choosePath
    by_cases hc : name i ∈ existing
    · rw [if_neg (by simp [hc]), if_neg (by simp)]
      have hs : w.step locks name i x = { w with phase := fun j => if j = i then .numbering 0 else w.phase j } := by
        unfold WWorld.step; rw [hw i]; simp [(hex _).mp hc]
      rw [hs] at hn
      rw [loop t { w with phase := fun j => if j = i then .numbering 0 else w.phase j } 0 hex (by simp) hn _ (by simp)]
    · rw [if_pos (by simp [hc])]
      have hs : w.step locks name i x = { w with phase := fun j => if j = i then .chosen (name i) else w.phase j } := by
        unfold WWorld.step; rw [hw i]
        have : ¬ (w.files (name i)).isSome = true := fun h => hc ((hex _).mpr h)
        simp only [if_neg this]
      rw [hs] at hn
      have := keep t _ (name i) (Or.inl (by simp [WPhase.path])) hn
      simp only [WPhase.path, if_true, Option.some.injEq] at this
      rw [this]

/-! ## Non-vacuity -/

/-- A directory with an old recording. -/
def oldRecording : WWorld := ⟨fun m => if m = "rec.h5".toList then some ⟨[(9, 1)], 0⟩ else none, fun _ => .start⟩

/-- Two writers for that path, one step after the other except for opening. -/
def twoWriters : List (ℕ × Option ℤ) := [(0, none), (1, none), (0, none), (0, none), (0, some 7), (1, none), (1, none), (1, none), (0, none)]

theorem twoWriters_others (a : List (ℕ × Option ℤ)) (ha : ∀ e ∈ a, e.1 < 2) (j : ℕ) (hj : 2 ≤ j) : (oldRecording.run true (fun _ => "rec.h5".toList) a).phase j = .start := by
  induction a using List.reverseRecOn with
  | nil => rfl
  | append_singleton l e ih =>
    rw [race_append, race_cons]
    have := ha e (by simp)
    exact (step_other true (fun _ => "rec.h5".toList) _ e.1 j e.2 (by omega)).trans (ih (fun x hx => ha x (by simp [hx])))

/-- They get numbers. -/
example : Prompt true (fun _ => "rec.h5".toList) oldRecording twoWriters ∧
    let w := oldRecording.run true (fun _ => "rec.h5".toList) twoWriters
    w.files "rec.h5".toList = some ⟨[(9, 1)], 0⟩ ∧ w.phase 0 = .closed "rec.0.h5".toList ∧ w.files "rec.0.h5".toList = some ⟨[(0, 7)], 0⟩ ∧ w.phase 1 = .writing "rec.1.h5".toList := by
  refine ⟨?_, by decide +kernel, by decide +kernel, by decide +kernel, by decide +kernel⟩
  intro a e b hab j n h
  have ha : a = twoWriters.take a.length := by rw [hab]; simp
  have he : twoWriters[a.length]? = some e := by rw [hab]; simp
  have hlt : a.length < 9 := by have := congrArg List.length hab; simp [twoWriters] at this; omega
  have hj : j < 2 := by
    by_contra hj
    rw [twoWriters_others a (fun x hx => by
      have : x ∈ twoWriters := by rw [hab]; simp [hx]
      exact (show ∀ y ∈ twoWriters, y.1 < 2 by decide) x this) j (by omega)] at h
    cases h
  have key : ∀ k < 9, ∀ j < 2, (match (oldRecording.run true (fun _ => "rec.h5".toList) (twoWriters.take k)).phase j with | .chosen _ => true | _ => false) = true →
      (twoWriters[k]?).map Prod.fst = some j := by decide +kernel
  have := key a.length hlt j hj (by rw [← ha, h])
  rw [he] at this
  simpa using this

/-- Paths that are apart. -/
example (n : Name) : mayUse "a.h5".toList n → ¬ mayUse "b.h5".toList n :=
  C115_beginnings ['a'] ['b'] ['h', '5'] ['h', '5'] (by decide) (by decide) (by decide) (by decide) (by decide) (by decide) (by decide) (by decide) (by decide) n

end Verif.Props
