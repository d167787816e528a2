import Mathlib.Tactic
import Verif.Model.Prime

/-!
# C100 — priming the data base
-/

namespace Verif.Props
open Verif.Py Verif.Model

/-- Specification: the text occurs in the other one. -/
def Occurs (sub p : List Char) : Prop := ∃ pre post, p = pre ++ sub ++ post

theorem occurs_iff_infix (sub p : List Char) : Occurs sub p ↔ sub <:+: p := by
  constructor
  · rintro ⟨a, b, h⟩; exact ⟨a, b, h.symm⟩
  · rintro ⟨a, b, h⟩; exact ⟨a, b, h.symm⟩

theorem pyFind_none (sub : List Char) : ∀ p, ¬ Occurs sub p → pyFind sub p = -1
  | [], h => by
    have : sub.isPrefixOf [] = false := by
      by_contra hc
      rw [Bool.not_eq_false, List.isPrefixOf_iff_prefix] at hc
      obtain ⟨t, ht⟩ := hc
      exact h ⟨[], t, by simpa using ht.symm⟩
    simp [pyFind, this]
  | c :: t, h => by
    have h1 : sub.isPrefixOf (c :: t) = false := by
      by_contra hc
      rw [Bool.not_eq_false, List.isPrefixOf_iff_prefix] at hc
      obtain ⟨u, hu⟩ := hc
      exact h ⟨[], u, by simpa using hu.symm⟩
    have h2 : ¬ Occurs sub t := by
      rintro ⟨a, b, e⟩
      exact h ⟨c :: a, b, by rw [e]; simp⟩
    simp [pyFind, h1, pyFind_none sub t h2]

/-- `find` gives the first occurrence. -/
theorem pyFind_some (sub : List Char) : ∀ p, Occurs sub p →
    ∃ pre post, p = pre ++ sub ++ post ∧ pyFind sub p = (pre.length : ℤ) ∧
      ∀ pre' post', p = pre' ++ sub ++ post' → pre.length ≤ pre'.length
  | [], h => by
    obtain ⟨a, b, e⟩ := h
    have hs : sub = [] := by
      have := congrArg List.length e
      simp only [List.length_nil, List.length_append] at this
      exact List.length_eq_zero_iff.mp (by omega)
    subst hs
    exact ⟨[], [], rfl, by simp [pyFind], by simp⟩
  | c :: t, h => by
    by_cases h1 : sub.isPrefixOf (c :: t) = true
    · obtain ⟨u, hu⟩ := List.isPrefixOf_iff_prefix.mp h1
      exact ⟨[], u, by simpa using hu.symm, by simp [pyFind, h1], by simp⟩
    · have key : ∀ pre post, c :: t = pre ++ sub ++ post → ∃ a, pre = c :: a ∧ t = a ++ sub ++ post := by
        intro pre post e
        cases pre with
        | nil => exact absurd (List.isPrefixOf_iff_prefix.mpr ⟨post, by simpa using e.symm⟩) h1
        | cons x a =>
          simp only [List.cons_append, List.cons.injEq] at e
          exact ⟨a, by rw [e.1], e.2⟩
      obtain ⟨pre, post, e⟩ := h
      obtain ⟨a, -, ht⟩ := key pre post e
      obtain ⟨p1, p2, e1, e2, e3⟩ := pyFind_some sub t ⟨a, post, ht⟩
      refine ⟨c :: p1, p2, by rw [e1]; simp, ?_, ?_⟩
      · have h1' : sub.isPrefixOf (c :: t) = false := Bool.not_eq_true _ ▸ h1
        have : ¬ ((p1.length : ℤ) < 0) := by omega
        simp [pyFind, h1', e2, this]
      · intro pre' post' e'
        obtain ⟨a', ha', ht'⟩ := key pre' post' e'
        have := e3 a' post' ht'
        rw [ha']
        simpa using this

/-- The name of the directory the script looks for. -/
def contentDir : List Char := "/content/".toList

/-- **C100** A path below a directory "content" becomes the path below `/var/shepherd/content/` with the same remainder, where the first such directory counts. -/
theorem C100_path (p : List Char) (h : Occurs contentDir p) :
    ∃ pre post, p = pre ++ contentDir ++ post ∧ serverPath p = "/var/shepherd/content/".toList ++ post ∧
      ∀ pre' post', p = pre' ++ contentDir ++ post' → pre.length ≤ pre'.length := by
  obtain ⟨pre, post, e, hf, hm⟩ := pyFind_some contentDir p h
  refine ⟨pre, post, e, ?_, hm⟩
  have h0 : ¬ ((pre.length : ℤ) < 0) := by omega
  have e2 : serverPath p = "/var/shepherd".toList ++ pyFrom (pyFind contentDir p) p := rfl
  have e3 : "/var/shepherd/content/".toList = "/var/shepherd".toList ++ contentDir := by decide +kernel
  rw [e2, hf, e3, pyFrom, if_neg h0]
  rw [Int.toNat_natCast]
  conv_lhs => rw [e]
  rw [List.append_assoc pre, List.drop_left, List.append_assoc]

theorem first_server (post : List Char) : pyFind contentDir ("/var/shepherd/content/".toList ++ post) = 13 := by
  have e : contentDir = ['/', 'c', 'o', 'n', 't', 'e', 'n', 't', '/'] := by decide +kernel
  have e3 : "/var/shepherd/content/".toList = ['/', 'v', 'a', 'r', '/', 's', 'h', 'e', 'p', 'h', 'e', 'r', 'd', '/', 'c', 'o', 'n', 't', 'e', 'n', 't', '/'] := by
    decide +kernel
  rw [e, e3]
  simp [pyFind, List.isPrefixOf]

/-- **C100** A path on the server stays as it is. -/
theorem C100_fixed (post : List Char) : serverPath ("/var/shepherd/content/".toList ++ post) = "/var/shepherd/content/".toList ++ post := by
  have e2 : serverPath ("/var/shepherd/content/".toList ++ post) =
      "/var/shepherd".toList ++ pyFrom (pyFind contentDir ("/var/shepherd/content/".toList ++ post)) ("/var/shepherd/content/".toList ++ post) := rfl
  have e3 : "/var/shepherd/content/".toList = ['/', 'v', 'a', 'r', '/', 's', 'h', 'e', 'p', 'h', 'e', 'r', 'd', '/', 'c', 'o', 'n', 't', 'e', 'n', 't', '/'] := by
    decide +kernel
  have e4 : "/var/shepherd".toList = ['/', 'v', 'a', 'r', '/', 's', 'h', 'e', 'p', 'h', 'e', 'r', 'd'] := by decide +kernel
  rw [e2, first_server, e3, e4]
  rfl

/-- **C100** Below one and the same directory different files keep different paths — whatever the directory is called. -/
theorem C100_distinct (root a b : List Char) (h : serverPath (root ++ contentDir ++ a) = serverPath (root ++ contentDir ++ b)) : a = b := by
  obtain ⟨pa, qa, ea, sa, ma⟩ := C100_path _ ⟨root, a, rfl⟩
  obtain ⟨pb, qb, eb, sb, mb⟩ := C100_path _ ⟨root, b, rfl⟩
  rw [sa, sb] at h
  have hq : qa = qb := List.append_cancel_left h
  -- the first occurrence lies within the common part, so it is the same
  have la : pa.length ≤ root.length := ma root a rfl
  have lb : pb.length ≤ root.length := mb root b rfl
  have move : ∀ (x y p q : List Char), root ++ contentDir ++ x = p ++ contentDir ++ q → p.length ≤ root.length →
      ∃ q', root ++ contentDir ++ y = p ++ contentDir ++ q' := by
    intro x y p q e l
    have hl : (p ++ contentDir).length ≤ (root ++ contentDir).length := by
      rw [List.length_append, List.length_append]; omega
    have hp : p ++ contentDir <+: root ++ contentDir :=
      List.prefix_of_prefix_length_le (l₃ := root ++ contentDir ++ x) ⟨q, e.symm⟩ ⟨x, rfl⟩ hl
    obtain ⟨t, ht⟩ := hp
    exact ⟨t ++ y, by rw [← ht]; simp⟩
  obtain ⟨q1, h1⟩ := move a b pa qa ea la
  obtain ⟨q2, h2⟩ := move b a pb qb eb lb
  have l1 := mb pa q1 h1
  have l2 := ma pb q2 h2
  have hl : pa.length = pb.length := by omega
  have hlen : (root ++ contentDir ++ a).length = (root ++ contentDir ++ b).length := by
    rw [ea, eb, hq]
    simp only [List.length_append]
    omega
  have hab : a.length = b.length := by
    simp only [List.length_append] at hlen
    omega
  -- both remainders end in the file, which has the same length
  have sfa : a <:+ qa ∨ qa <:+ a := List.suffix_or_suffix_of_suffix (l₃ := root ++ contentDir ++ a) ⟨_, rfl⟩ ⟨_, ea.symm⟩
  have sfb : b <:+ qb ∨ qb <:+ b := List.suffix_or_suffix_of_suffix (l₃ := root ++ contentDir ++ b) ⟨_, rfl⟩ ⟨_, eb.symm⟩
  have hle : a.length ≤ qa.length := by
    have := congrArg List.length ea
    simp only [List.length_append] at this
    omega
  have ha : a <:+ qa := by
    rcases sfa with s | s
    · exact s
    · rw [s.eq_of_length_le hle]
  have hb : b <:+ qa := by
    rw [hq]
    rcases sfb with s | s
    · exact s
    · rw [s.eq_of_length_le (by rw [← hq]; omega)]
  exact (List.suffix_of_suffix_length_le ha hb (by omega)).eq_of_length hab

/-- Specification: the path on the server for a path: below `/var/shepherd/content/` with what follows the first directory "content"; without such a directory only the last character is left (see
`C100_elsewhere_violated`). -/
def ServerOf (p q : List Char) : Prop :=
  (∀ pre post, p = pre ++ contentDir ++ post → (∀ pre' post', p = pre' ++ contentDir ++ post' → pre.length ≤ pre'.length) →
    q = "/var/shepherd/content/".toList ++ post) ∧
  (¬ Occurs contentDir p → q = "/var/shepherd".toList ++ p.drop (p.length - 1))

theorem serverOf (p : List Char) : ServerOf p (serverPath p) := by
  constructor
  · intro pre post e m
    obtain ⟨pre1, post1, e1, s1, m1⟩ := C100_path p ⟨pre, post, e⟩
    have l1 := m pre1 post1 e1
    have l2 := m1 pre post e
    have hl : (pre ++ contentDir).length = (pre1 ++ contentDir).length := by
      simp only [List.length_append]; omega
    rw [s1, (List.append_inj (e.symm.trans e1) hl).2]
  · intro h
    have e2 : serverPath p = "/var/shepherd".toList ++ pyFrom (pyFind contentDir p) p := rfl
    rw [e2, pyFind_none _ _ h]
    simp [pyFrom]

/-- Specification: the model of the data base for a model found: the fields that carry no reference are as they were, the data is no longer local. -/
inductive Moved {β : Type} : PrimeModel β → PrimeModel β → Prop
  | firmware (rest : β) (data : List Char) (t : FwType) (h : Option String) (l : Bool) (new : List Char) (hn : ServerOf data new) :
      Moved (.firmware rest data t h l) (.firmware rest new .pathElf none false)
  | energy (rest : β) (path : List Char) (l : Bool) (new : List Char) (hn : ServerOf path new) :
      Moved (.energy rest path l) (.energy rest new false)

/-- Specification: the models of the files, in order. -/
def primeModels {β : Type} : List (PrimeFile β) → List (PrimeModel β)
  | [] => []
  | .model m :: l => m :: primeModels l
  | _ :: l => primeModels l

/-- Specification: the file stops the script. -/
def Stops {β : Type} : PrimeFile β → Prop
  | .broken e => e ≠ .valueError
  | _ => False

theorem primeFiles_ok {β : Type} : ∀ files : List (PrimeFile β), (∀ f ∈ files, ¬ Stops f) →
    ∃ ms, primeFiles files = .ok ms ∧ List.Forall₂ Moved (primeModels files) ms
  | [], _ => ⟨[], rfl, .nil⟩
  | f :: l, h => by
    obtain ⟨ms, e, r⟩ := primeFiles_ok l (fun g hg => h g (List.mem_cons_of_mem _ hg))
    have hf := h f List.mem_cons_self
    cases f with
    | model m =>
      refine ⟨primeModel m :: ms, by simp [primeFiles, primeLoad, e], ?_⟩
      refine .cons ?_ r
      cases m with
      | firmware rest data t hh ll => exact .firmware _ _ _ _ _ _ (serverOf _)
      | energy rest p ll => exact .energy _ _ _ _ (serverOf _)
    | other => exact ⟨ms, by simp [primeFiles, primeLoad, e], r⟩
    | broken x =>
      have hx : x = .valueError := by
        by_contra hc
        exact hf hc
      exact ⟨ms, by simp [primeFiles, primeLoad, e, hx], r⟩

/-- **C100** When no file stops the script, the data base holds exactly one fixture for every firmware and environment found, in the order they were found, moved and otherwise unchanged; other files are
left out, and so is all that the data base held before. -/
theorem C100_complete {β : Type} (old : List (PrimeModel β)) (files : List (PrimeFile β)) (h : ∀ f ∈ files, ¬ Stops f) :
    (prime old files).2 = .ok () ∧ List.Forall₂ Moved (primeModels files) (prime old files).1 := by
  obtain ⟨ms, e, r⟩ := primeFiles_ok files h
  simp only [prime, e]
  exact ⟨trivial, r⟩

theorem primeFiles_stop {β : Type} : ∀ files : List (PrimeFile β), (∃ f ∈ files, Stops f) →
    ∃ e, primeFiles files = .error e ∧ PrimeFile.broken e ∈ files ∧ e ≠ .valueError
  | [], h => by simp at h
  | f :: l, h => by
    by_cases hf : Stops f
    · cases f with
      | broken x => exact ⟨x, by simp [primeFiles, primeLoad, show x ≠ .valueError from hf], List.mem_cons_self, hf⟩
      | model m => exact hf.elim
      | other => exact hf.elim
    · obtain ⟨e, he, hm, hx⟩ := primeFiles_stop l (by
        obtain ⟨g, hg, hs⟩ := h
        rcases List.mem_cons.mp hg with rfl | hg
        · exact absurd hs hf
        · exact ⟨g, hg, hs⟩)
      refine ⟨e, ?_, List.mem_cons_of_mem _ hm, hx⟩
      cases f with
      | broken x =>
        have : x = .valueError := by
          by_contra hc
          exact hf hc
        simp [primeFiles, primeLoad, this, he]
      | model m => simp [primeFiles, primeLoad, he]
      | other => simp [primeFiles, primeLoad, he]

/-- **C100** Any single file that stops the script leaves the data base as it was, whatever the other files hold, and the caller sees the exception. -/
theorem C100_stopped {β : Type} (old : List (PrimeModel β)) (files : List (PrimeFile β)) (h : ∃ f ∈ files, Stops f) :
    (prime old files).1 = old ∧ ∃ e, (prime old files).2 = .error e ∧ PrimeFile.broken e ∈ files ∧ e ≠ .valueError := by
  obtain ⟨e, he, hm⟩ := primeFiles_stop files h
  simp only [prime, he]
  exact ⟨trivial, e, rfl, hm⟩

/-- Specification: the data of the model is a path below a directory "content". -/
def InContent {β : Type} : PrimeModel β → Prop
  | .firmware _ data _ _ _ => Occurs contentDir data
  | .energy _ path _ => Occurs contentDir path

theorem serverPath_twice (p : List Char) (h : Occurs contentDir p) : serverPath (serverPath p) = serverPath p := by
  obtain ⟨_, post, -, s, -⟩ := C100_path p h
  rw [s, C100_fixed]

/-- **C100** Priming again with the models of the data base itself changes nothing. -/
theorem C100_again {β : Type} (old old' : List (PrimeModel β)) (ms : List (PrimeModel β)) (h : ∀ m ∈ ms, InContent m) :
    (prime old' ((prime old (ms.map .model)).1.map .model)).1 = (prime old (ms.map .model)).1 := by
  have run : ∀ l : List (PrimeModel β), primeFiles (l.map .model) = .ok (l.map primeModel) := by
    intro l
    induction l with
    | nil => rfl
    | cons a t ih => simp [primeFiles, primeLoad, ih]
  have one : ∀ l : List (PrimeModel β), ∀ o, (prime o (l.map .model)).1 = l.map primeModel := by
    intro l o
    simp only [prime, run]
  rw [one, one, List.map_map]
  refine List.map_congr_left (fun m hm => ?_)
  have := h m hm
  cases m with
  | firmware rest data t hh ll => simp only [Function.comp, primeModel, serverPath_twice data this]
  | energy rest p ll => simp only [Function.comp, primeModel, serverPath_twice p this]

/-- Violated: a path that is not below a directory "content" is not kept: only its last character is.  So all recordings (`.h5`) kept elsewhere end up as one path. -/
theorem C100_elsewhere_violated (p : List Char) (c : Char) (h : ¬ Occurs contentDir (p ++ [c])) :
    serverPath (p ++ [c]) = "/var/shepherd".toList ++ [c] := by
  have e2 : serverPath (p ++ [c]) = "/var/shepherd".toList ++ pyFrom (pyFind contentDir (p ++ [c])) (p ++ [c]) := rfl
  rw [e2, pyFind_none _ _ h]
  simp [pyFrom]

/-- Violated: the data of a firmware is treated as a path whatever its type is: embedded firmware is lost — what remains is a reference to a path on the server that depends on the last character at
most — and a reference to a HEX file is declared to be an ELF file. -/
theorem C100_embedded_violated {β : Type} (old : List (PrimeModel β)) (rest : β) (data : List Char) (c : Char) (t : FwType) (h : Option String) (l : Bool)
    (hc : ¬ Occurs contentDir (data ++ [c])) :
    (prime old [.model (.firmware rest (data ++ [c]) t h l)]).1 = [.firmware rest ("/var/shepherd".toList ++ [c]) .pathElf none false] ∧
    (prime old [.model (.firmware rest (data ++ [c]) t h l)]).2 = .ok () := by
  simp only [prime, primeFiles, primeLoad, primeModel, C100_elsewhere_violated data c hc, and_self]

/-- A HEX file below "content" is declared to be an ELF file. -/
theorem C100_hex_violated {β : Type} (old : List (PrimeModel β)) (rest : β) (post : List Char) (h : Option String) (l : Bool) :
    (prime old [.model (.firmware rest ("/var/shepherd/content/".toList ++ post) .pathHex h l)]).1 =
      [.firmware rest ("/var/shepherd/content/".toList ++ post) .pathElf none false] := by
  simp only [prime, primeFiles, primeLoad, primeModel, C100_fixed]

-- non-vacuity
example : serverPath "/home/u/extra/content/fw/nrf/build.elf".toList = "/var/shepherd/content/fw/nrf/build.elf".toList := by decide +kernel
example : serverPath "/content/a/content/b".toList = "/var/shepherd/content/a/content/b".toList := by decide +kernel
example : serverPath "/data/env/sun.h5".toList = "/var/shepherd5".toList := by decide +kernel
example : Occurs contentDir "/home/u/extra/content/fw/nrf/build.elf".toList := ⟨"/home/u/extra".toList, "fw/nrf/build.elf".toList, by decide +kernel⟩
example : ¬ Occurs contentDir ("f0VMRgEBAQAA".toList ++ ['=']) := by
  rw [occurs_iff_infix]
  decide +kernel
example : (prime ([] : List (PrimeModel Nat)) [.model (.energy 7 "/x/content/e.h5".toList true), .other, .broken .valueError,
    .model (.firmware 8 "/x/content/f.elf".toList .pathElf (some "ab") true)]).1 =
    [.energy 7 "/var/shepherd/content/e.h5".toList false, .firmware 8 "/var/shepherd/content/f.elf".toList .pathElf none false] := by
  simp only [prime, primeFiles, primeLoad, primeModel]
  rw [if_pos trivial]
  have h1 : serverPath "/x/content/e.h5".toList = "/var/shepherd/content/e.h5".toList := by decide +kernel
  have h2 : serverPath "/x/content/f.elf".toList = "/var/shepherd/content/f.elf".toList := by decide +kernel
  rw [h1, h2]
example : (prime [PrimeModel.energy 1 "/a".toList false] [.model (.energy 7 "/x/content/e.h5".toList true), .broken .typeError]).1 =
    [PrimeModel.energy 1 "/a".toList false] := (C100_stopped _ _ ⟨.broken .typeError, by simp, by simp [Stops]⟩).1

end Verif.Props
