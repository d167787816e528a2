import Verif.Model.FixCache
import Verif.Props.Client

/-!
# C114: interrupted programs and the cache of fixtures
-/

namespace Verif.Props
open Verif.Py Verif.Model

variable {β : Type}

/-- The results of collections that are made one after the other. -/
def startAll (ops : StrOps) (pk : Pickle β) : CacheFile β → List FixStart → List (Option (Except PyErr Components))
  | _, [] => []
  | disk, s :: rest => (startFixtures ops pk disk s).1 :: startAll ops pk (startFixtures ops pk disk s).2 rest

/-- The cache after collections were made. -/
def cacheAfter (ops : StrOps) (pk : Pickle β) (disk : CacheFile β) (starts : List FixStart) : CacheFile β := starts.foldl (fun d s => (startFixtures ops pk d s).2) disk

/-- A result that is as the path says: the components in its files, or an error. -/
def Faithful (ops : StrOps) (s : FixStart) (r : Option (Except PyErr Components)) : Prop := ∀ x, r = some x → ∀ c, x = .ok c ↔ FixPath.Loads ops s.path c

/-- Specification: an observer that opened the cache to write these components. -/
def WritesCache (ops : StrOps) (s : FixStart) (c : Components) : Prop := s.sheep = true ∧ s.interrupt ≠ .before ∧ FixPath.Loads ops s.path c ∧ c ≠ []

theorem fresh_cases (ops : StrOps) (pk : Pickle β) (disk : CacheFile β) (s : FixStart) : Faithful ops s (freshFixtures ops pk disk s).1 ∧
    (((freshFixtures ops pk disk s).2 = disk ∧ ∀ c, ¬ WritesCache ops s c) ∨
      ∃ c, WritesCache ops s c ∧ (∀ c', WritesCache ops s c' → c' = c) ∧
        ((s.interrupt = .never ∧ (freshFixtures ops pk disk s).2 = some (pk.dump c, s.now)) ∨
          ∃ n, s.interrupt = .writing n ∧ (freshFixtures ops pk disk s).2 = some ((pk.dump c).take n, s.now))) := by
  obtain ⟨now, sheep, reset, path, int⟩ := s
  have hload : ∀ c, FixPath.Loads ops path c ↔ readPath ops path = .ok c := by
    intro c
    unfold FixPath.Loads readPath
    cases path with
    | missing => simp
    | file f => simp [FixPath.files]
    | dir fs => simp [FixPath.files]
  unfold freshFixtures Faithful WritesCache
  simp only [hload]
  generalize readPath ops path = res
  cases int with
  | before => exact ⟨by simp, Or.inl ⟨rfl, fun c h => h.2.1 rfl⟩⟩
  | never =>
    cases res with
    | error e => exact ⟨by simp, Or.inl ⟨rfl, by simp⟩⟩
    | ok c =>
      simp only
      by_cases hc : c.length < 1
      · have : c = [] := List.eq_nil_of_length_eq_zero (by omega)
        subst this
        exact ⟨by simp, Or.inl ⟨by simp, by rintro c ⟨_, _, h, hne⟩; cases h; exact hne rfl⟩⟩
      · rw [if_neg hc]
        have hne : c ≠ [] := by rintro rfl; simp at hc
        cases sheep with
        | false => exact ⟨by simp, Or.inl ⟨by simp, by simp⟩⟩
        | true => exact ⟨by simp, Or.inr ⟨c, ⟨rfl, by simp, rfl, hne⟩, by rintro c' ⟨_, _, h, _⟩; cases h; rfl, Or.inl (by simp)⟩⟩
  | writing n =>
    cases res with
    | error e => exact ⟨by simp, Or.inl ⟨rfl, by simp⟩⟩
    | ok c =>
      simp only
      by_cases hc : c.length < 1
      · have : c = [] := List.eq_nil_of_length_eq_zero (by omega)
        subst this
        exact ⟨by simp, Or.inl ⟨by simp, by rintro c ⟨_, _, h, hne⟩; cases h; exact hne rfl⟩⟩
      · rw [if_neg hc]
        have hne : c ≠ [] := by rintro rfl; simp at hc
        cases sheep with
        | false => exact ⟨by simp, Or.inl ⟨by simp, by simp⟩⟩
        | true => exact ⟨by simp, Or.inr ⟨c, ⟨rfl, by simp, rfl, hne⟩, by rintro c' ⟨_, _, h, _⟩; cases h; rfl, Or.inr ⟨n, rfl, by simp⟩⟩⟩

/-- **C114, one machine.**  On observers, whatever is in the file of the cache, and on other machines without such a file: however earlier programs were interrupted, each collection
that is made holds what is in the files of its path. -/
theorem C114_machine (ops : StrOps) (pk : Pickle β) (sheep : Bool) : ∀ (disk : CacheFile β) (starts : List FixStart), (∀ s ∈ starts, s.sheep = sheep) → sheep = true ∨ disk = none →
    List.Forall₂ (fun r s => Faithful ops s r) (startAll ops pk disk starts) starts
  | _, [], _, _ => List.Forall₂.nil
  | disk, s :: rest, hs, h => by
    have hsheep := hs s (by simp)
    have he : startFixtures ops pk disk s = freshFixtures ops pk disk s := by
      unfold startFixtures
      cases disk with
      | none => rfl
      | some e =>
        obtain ⟨bytes, mtime⟩ := e
        rcases h with h | h
        · simp [hsheep, h]
        · cases h
    rw [startAll]
    refine List.Forall₂.cons (by rw [he]; exact (fresh_cases ops pk disk s).1) (C114_machine ops pk sheep _ rest (fun x hx => hs x (List.mem_cons_of_mem _ hx)) ?_)
    rcases h with h | h
    · exact Or.inl h
    · subst h
      cases hb : sheep with
      | true => exact Or.inl rfl
      | false =>
        right
        rw [he]
        rcases (fresh_cases ops pk none s).2 with ⟨h1, _⟩ | ⟨c, hw, _⟩
        · exact h1
        · rw [hw.1] at hsheep; rw [← hsheep] at hb; cases hb

/-- The cache holds what the last observer wrote that opened it, cut off if that was interrupted. -/
theorem cache_last (ops : StrOps) (pk : Pickle β) (starts : List FixStart) :
    (cacheAfter ops pk none starts = none ∧ ∀ s ∈ starts, ∀ c, ¬ WritesCache ops s c) ∨
    ∃ a w b c, starts = a ++ w :: b ∧ WritesCache ops w c ∧ (∀ s ∈ b, ∀ c, ¬ WritesCache ops s c) ∧
      ((w.interrupt = .never ∧ cacheAfter ops pk none starts = some (pk.dump c, w.now)) ∨
        ∃ n, w.interrupt = .writing n ∧ cacheAfter ops pk none starts = some ((pk.dump c).take n, w.now)) := by
  induction starts using List.reverseRecOn with
  | nil => exact Or.inl ⟨rfl, by simp⟩
  | append_singleton l s ih =>
    have hd : cacheAfter ops pk none (l ++ [s]) = (startFixtures ops pk (cacheAfter ops pk none l) s).2 := by unfold cacheAfter; rw [List.foldl_append]; rfl
    rw [hd]
    have hcase : ((startFixtures ops pk (cacheAfter ops pk none l) s).2 = cacheAfter ops pk none l ∧ ∀ c, ¬ WritesCache ops s c) ∨
        ∃ c, WritesCache ops s c ∧ ((s.interrupt = .never ∧ (startFixtures ops pk (cacheAfter ops pk none l) s).2 = some (pk.dump c, s.now)) ∨
          ∃ n, s.interrupt = .writing n ∧ (startFixtures ops pk (cacheAfter ops pk none l) s).2 = some ((pk.dump c).take n, s.now)) := by
      have hf := (fresh_cases ops pk (cacheAfter ops pk none l) s).2
      have hread : startFixtures ops pk (cacheAfter ops pk none l) s = freshFixtures ops pk (cacheAfter ops pk none l) s ∨
          ((startFixtures ops pk (cacheAfter ops pk none l) s).2 = cacheAfter ops pk none l ∧ s.sheep = false) := by
        unfold startFixtures
        cases cacheAfter ops pk none l with
        | none => exact Or.inl rfl
        | some e =>
          obtain ⟨bytes, mtime⟩ := e
          simp only
          by_cases h : (!s.sheep && !(decide (mtime < s.now - 24 * 3600 * 10^6)) && !s.reset) = true
          · rw [if_pos h]
            right
            refine ⟨rfl, ?_⟩
            cases hb : s.sheep with
            | false => rfl
            | true => simp [hb] at h
          · rw [if_neg h]; exact Or.inl rfl
      rcases hread with he | ⟨he, hb⟩
      · rw [he]
        rcases hf with h | ⟨c, hw, _, h⟩
        · exact Or.inl h
        · exact Or.inr ⟨c, hw, h⟩
      · exact Or.inl ⟨he, fun c hw => by rw [hw.1] at hb; cases hb⟩
    rcases hcase with ⟨he, hn⟩ | ⟨c, hw, h⟩
    · rw [he]
      rcases ih with ⟨h1, h2⟩ | ⟨a, w, b, c, h1, h2, h3, h4⟩
      · left
        refine ⟨h1, fun x hx => ?_⟩
        rcases List.mem_append.mp hx with hx | hx
        · exact h2 x hx
        · rw [List.mem_singleton.mp hx]; exact hn
      · right
        refine ⟨a, w, b ++ [s], c, by rw [h1]; simp, h2, fun x hx => ?_, h4⟩
        rcases List.mem_append.mp hx with hx | hx
        · exact h3 x hx
        · rw [List.mem_singleton.mp hx]; exact hn
    · exact Or.inr ⟨l, s, [], c, rfl, hw, by simp, h⟩

/-- **C114, machines that share a home directory.**  After any history that began without a cache, with observers and other machines and programs interrupted at any point: a collection
holds what is in the files of its path; or no observer asks, without `reset`, within a day of the last observer that opened the cache to write, and it holds what that observer read if that
one was not interrupted while writing, and otherwise that or fails. -/
theorem C114_shared (ops : StrOps) (pk : Pickle β) (before : List FixStart) (s : FixStart) :
    Faithful ops s (startFixtures ops pk (cacheAfter ops pk none before) s).1 ∨
    ∃ a w b c, before = a ++ w :: b ∧ WritesCache ops w c ∧ (∀ x ∈ b, ∀ c, ¬ WritesCache ops x c) ∧ s.sheep = false ∧ s.reset = false ∧ s.now - 24 * 3600 * 10^6 ≤ w.now ∧
      ((startFixtures ops pk (cacheAfter ops pk none before) s).1 = some (.ok c) ∨
        ((∃ n, w.interrupt = .writing n ∧ n < (pk.dump c).length) ∧ ∃ e, (startFixtures ops pk (cacheAfter ops pk none before) s).1 = some (.error e))) := by
  rcases cache_last ops pk before with ⟨h, _⟩ | ⟨a, w, b, c, h1, h2, h3, h4⟩
  · left
    rw [h]
    exact (fresh_cases ops pk none s).1
  · obtain ⟨bytes, hb, hload⟩ : ∃ bytes, cacheAfter ops pk none before = some (bytes, w.now) ∧ (pk.load bytes = .ok c ∨ ((∃ n, w.interrupt = .writing n ∧ n < (pk.dump c).length) ∧ ∃ e, pk.load bytes = .error e)) := by
      rcases h4 with ⟨_, h⟩ | ⟨n, hn, h⟩
      · exact ⟨_, h, Or.inl (pk.load_dump c)⟩
      · refine ⟨_, h, ?_⟩
        rcases Nat.lt_or_ge n (pk.dump c).length with hl | hl
        · exact Or.inr ⟨⟨n, hn, hl⟩, pk.load_cut c n hl⟩
        · left; rw [List.take_of_length_le hl]; exact pk.load_dump c
    rw [hb]
    unfold startFixtures
    simp only
    by_cases hr : (!s.sheep && !(decide (w.now < s.now - 24 * 3600 * 10^6)) && !s.reset) = true
    · right
      rw [if_pos hr]
      simp only [Bool.and_eq_true, Bool.not_eq_true', decide_eq_false_iff_not, not_lt] at hr
      refine ⟨a, w, b, c, h1, h2, h3, hr.1.1, hr.2, hr.1.2, ?_⟩
      rcases hload with hl | ⟨hi, e, hl⟩
      · exact Or.inl (by rw [hl])
      · exact Or.inr ⟨hi, e, by rw [hl]⟩
    · left
      rw [if_neg hr]
      exact (fresh_cases ops pk _ s).1

/-- **C114, recovery.**  Whatever happened before: with `reset`, on an observer, or a day after the last observer opened the cache, a collection holds what is in the files of its path. -/
theorem C114_recovers (ops : StrOps) (pk : Pickle β) (before : List FixStart) (s : FixStart)
    (h : s.reset = true ∨ s.sheep = true ∨ ∀ w ∈ before, w.sheep = true → w.now < s.now - 24 * 3600 * 10^6) : Faithful ops s (startFixtures ops pk (cacheAfter ops pk none before) s).1 := by
  rcases C114_shared ops pk before s with hf | ⟨a, w, b, c, h1, h2, _, hs, hr, ht, _⟩
  · exact hf
  · exfalso
    rcases h with h | h | h
    · rw [h] at hr; cases hr
    · rw [h] at hs; cases hs
    · exact absurd (h w (by rw [h1]; simp) h2.1) (not_lt.mpr ht)

/-- **C114, violated: a cut off cache.**  If an observer is interrupted while it writes the cache, all machines with the same home directory that are no observers fail to make a collection for
a day, of any path, however often they try. -/
theorem C114_cut_violated (ops : StrOps) (pk : Pickle β) (before : List FixStart) (w : FixStart) (c : Components) (n : ℕ) (hw : WritesCache ops w c) (hi : w.interrupt = .writing n)
    (hn : n < (pk.dump c).length) (tries : List FixStart) (ht : ∀ s ∈ tries, s.sheep = false ∧ s.reset = false ∧ s.now ≤ w.now + 24 * 3600 * 10^6) :
    ∀ r ∈ startAll ops pk (cacheAfter ops pk none (before ++ [w])) tries, ∃ e, r = some (.error e) := by
  have hdisk : cacheAfter ops pk none (before ++ [w]) = some ((pk.dump c).take n, w.now) := by
    have hd : cacheAfter ops pk none (before ++ [w]) = (startFixtures ops pk (cacheAfter ops pk none before) w).2 := by unfold cacheAfter; rw [List.foldl_append]; rfl
    have hfresh : startFixtures ops pk (cacheAfter ops pk none before) w = freshFixtures ops pk (cacheAfter ops pk none before) w := by
      unfold startFixtures
      cases cacheAfter ops pk none before with
      | none => rfl
      | some e => obtain ⟨_, _⟩ := e; simp [hw.1]
    rw [hd, hfresh]
    rcases (fresh_cases ops pk (cacheAfter ops pk none before) w).2 with ⟨_, h⟩ | ⟨c', _, hu, h⟩
    · exact absurd hw (h c)
    · rw [hu c hw]
      rcases h with ⟨h, _⟩ | ⟨m, h, h'⟩
      · rw [hi] at h; cases h
      · rw [hi] at h; cases h; exact h'
  rw [hdisk]
  obtain ⟨e, he⟩ := pk.load_cut c n hn
  induction tries with
  | nil => intro r hr; cases hr
  | cons s rest ih =>
    obtain ⟨h1, h2, h3⟩ := ht s (by simp)
    have hs : startFixtures ops pk (some ((pk.dump c).take n, w.now)) s = (some (.error e), some ((pk.dump c).take n, w.now)) := by
      unfold startFixtures
      simp only
      rw [if_pos (by simp only [h1, h2, Bool.not_false, Bool.and_true, Bool.true_and, Bool.not_eq_true', decide_eq_false_iff_not, not_lt]; omega), he]
    intro r hr
    rw [startAll, hs] at hr
    rcases List.mem_cons.mp hr with h | h
    · exact ⟨e, h⟩
    · exact ih (fun x hx => ht x (List.mem_cons_of_mem _ hx)) r h

/-! ## Non-vacuity -/

/-- A pickle with two marks: the components and the end. -/
def twoMarks : Pickle (Option Components) where
  dump c := [some c, none]
  load l := match l with
    | [some c, none] => .ok c
    | _ => .error .valueError
  load_dump _ := rfl
  load_cut c n hn := by
    have : n = 0 ∨ n = 1 := by simp at hn; omega
    rcases this with rfl | rfl <;> exact ⟨_, rfl⟩

/-- A file with one fixture. -/
def oneFixture : FixPath := .file (some [.model "base" (fun k => if k = "name" then some (.str "a") else if k = "id" then some (.int 1) else none)])

/-- Only these outcomes are compared. -/
def startOutcome : Option (Except PyErr Components) → ℕ
  | none => 0
  | some (.error _) => 1
  | some (.ok c) => 1 + c.length

/-- An observer writes its components but is interrupted after one mark; another machine fails, but not a day later, and with `reset`. -/
example : (∃ c, WritesCache plainOps ⟨0, true, false, oneFixture, .writing 1⟩ c ∧ 1 < (twoMarks.dump c).length) ∧
    (startAll plainOps twoMarks none [⟨0, true, false, oneFixture, .writing 1⟩, ⟨10, false, false, oneFixture, .never⟩, ⟨20, false, true, oneFixture, .never⟩,
      ⟨86400000001, false, false, oneFixture, .never⟩]).map startOutcome = [0, 1, 2, 2] := by
  refine ⟨⟨_, ⟨rfl, by simp, ⟨by simp [oneFixture], rfl⟩, List.cons_ne_nil _ _⟩, by simp [twoMarks]⟩, rfl⟩

end Verif.Props
