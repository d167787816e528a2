import Verif.Py.Err
import Mathlib.Data.List.Forall2

namespace Verif.Py

variable {ε α β : Type}

theorem bind_ok_iff {x : Except ε α} {f : α → Except ε β} {b : β} :
    (x >>= f) = .ok b ↔ ∃ a, x = .ok a ∧ f a = .ok b := by
  cases x with
  | error e => constructor
               · intro h; cases h
               · rintro ⟨a, h, -⟩; cases h
  | ok a => constructor
            · intro h; exact ⟨a, rfl, h⟩
            · rintro ⟨a', h, h2⟩; cases h; exact h2

theorem ok_bind (a : α) (f : α → Except ε β) : ((Except.ok a : Except ε α) >>= f) = f a := rfl

theorem pure_ok_iff {a b : α} : (pure a : Except ε α) = .ok b ↔ a = b := by
  constructor
  · intro h; cases h; rfl
  · rintro rfl; rfl

theorem mapM_ok_iff (f : α → Except ε β) : ∀ (l : List α) (r : List β),
    l.mapM f = .ok r ↔ List.Forall₂ (fun a b => f a = .ok b) l r
  | [], r => by
    rw [List.mapM_nil, pure_ok_iff]
    constructor
    · rintro rfl; exact .nil
    · intro h; cases h; rfl
  | a :: l, r => by
    rw [List.mapM_cons, bind_ok_iff]
    constructor
    · rintro ⟨b, hb, h⟩
      rw [bind_ok_iff] at h
      obtain ⟨bs, hbs, h⟩ := h
      rw [pure_ok_iff] at h
      subst h
      exact .cons hb ((mapM_ok_iff f l bs).1 hbs)
    · intro h
      cases h with
      | cons hb hbs =>
        refine ⟨_, hb, ?_⟩
        rw [bind_ok_iff]
        exact ⟨_, (mapM_ok_iff f l _).2 hbs, rfl⟩

/-- If every element is fine, so is the list. -/
theorem mapM_ok_of (f : α → Except ε β) (l : List α) (h : ∀ a ∈ l, ∃ b, f a = .ok b) :
    ∃ r, l.mapM f = .ok r := by
  induction l with
  | nil => exact ⟨[], (mapM_ok_iff f [] []).2 .nil⟩
  | cons a l ih =>
    obtain ⟨b, hb⟩ := h a (by simp)
    obtain ⟨r, hr⟩ := ih (fun x hx => h x (by simp [hx]))
    exact ⟨b :: r, (mapM_ok_iff f _ _).2 (.cons hb ((mapM_ok_iff f _ _).1 hr))⟩

theorem mapM_ok_length (f : α → Except ε β) {l : List α} {r : List β} (h : l.mapM f = .ok r) :
    r.length = l.length := ((mapM_ok_iff f l r).1 h).length_eq.symm

theorem mapM_ok_mem (f : α → Except ε β) {l : List α} {r : List β} (h : l.mapM f = .ok r) :
    ∀ b ∈ r, ∃ a ∈ l, f a = .ok b := by
  have h' := (mapM_ok_iff f l r).1 h
  clear h
  induction h' with
  | nil => simp
  | cons hb _ ih =>
    intro b hb'
    rcases List.mem_cons.1 hb' with rfl | hb'
    · exact ⟨_, by simp, hb⟩
    · obtain ⟨a, ha, e⟩ := ih b hb'
      exact ⟨a, by simp [ha], e⟩

theorem mapM_ok_get (f : α → Except ε β) {l : List α} {r : List β} (h : l.mapM f = .ok r) (i : ℕ) (a : α)
    (hi : l[i]? = some a) : ∃ b, r[i]? = some b ∧ f a = .ok b := by
  have h' := (mapM_ok_iff f l r).1 h
  clear h
  induction h' generalizing i with
  | nil => simp at hi
  | cons hb _ ih =>
    cases i with
    | zero =>
      simp only [List.getElem?_cons_zero, Option.some.injEq] at hi
      subst hi
      exact ⟨_, by simp, hb⟩
    | succ i =>
      simp only [List.getElem?_cons_succ] at hi ⊢
      exact ih i hi

end Verif.Py
