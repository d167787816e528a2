import Verif.Model.FixIter
import Verif.Props.Inventory
import Verif.Props.Fixtures

/-!
# C119 Loops over fixtures
-/

namespace Verif.Props
open Verif.Model Verif.Py

/-! ## Specification -/

/-- Made by insertions, and loops or anything else that moves the iterator, from an empty collection. -/
inductive Reached (ops : StrOps) (model : String) : FixLoop → Prop
  | init : Reached ops model .init
  | insert {s s' datatype r} : Reached ops model s → s.insert ops model datatype r = .ok s' → Reached ops model s'
  | iter {s} : Reached ops model s → Reached ops model s.iter
  | next {s r s'} : Reached ops model s → s.next = some (r, s') → Reached ops model s'

/-- What the body of a loop does to the collection: insertions only, one after the other. -/
inductive Inserts (ops : StrOps) (model : String) : FixLoop → FixLoop → Prop
  | none {s} : Inserts ops model s s
  | one {s s' t datatype r} : s.insert ops model datatype r = .ok s' → Inserts ops model s' t → Inserts ops model s t

/-- The name under which a record is kept. -/
def keyName (ops : StrOps) (r : Rec) : Option String := (r "name").map fun n => ops.lower (ops.ofVal n)

/-- All names, in their order. -/
def FixtureNames (s : FixLoop) : List String := s.db.byName.map (·.1)

/-! ## The state -/

/-- The list is up to date and names are those of the records. -/
structure Synced (ops : StrOps) (s : FixLoop) : Prop where
  list : s.list = s.db.values
  names : ∀ p ∈ s.db.byName, keyName ops p.2 = some p.1
  nodup : (FixtureNames s).Nodup

theorem dictSet_mem {κ α : Type} [DecidableEq κ] {k : κ} {v : α} {p : κ × α} : ∀ {d : List (κ × α)}, p ∈ dictSet d k v → p ∈ d ∨ p = (k, v)
  | [], h => by simp only [dictSet, List.mem_singleton] at h; exact .inr h
  | (k', v') :: t, h => by
    unfold dictSet at h
    split_ifs at h with hk
    · rcases List.mem_cons.1 h with h | h
      · right; rw [h, hk]
      · left; exact List.mem_cons_of_mem _ h
    · rcases List.mem_cons.1 h with h | h
      · left; rw [h]; exact List.mem_cons_self
      · rcases dictSet_mem h with h | h
        · left; exact List.mem_cons_of_mem _ h
        · exact .inr h

theorem insert_cases {ops : StrOps} {model : String} {s s' : FixLoop} {datatype : String} {r : Rec} (h : s.insert ops model datatype r = .ok s') :
    s' = s ∨ ∃ k, keyName ops r = some k ∧ s'.db.byName = dictSet s.db.byName k r ∧ s'.index = s.index ∧ s'.list = s'.db.values := by
  unfold FixLoop.insert at h
  by_cases h1 : ops.lower datatype ≠ ops.lower model ∨ r "name" = none
  · rw [if_pos h1] at h
    injection h with h; exact .inl h.symm
  · rw [if_neg h1] at h
    push Not at h1
    right
    obtain ⟨h1, h2⟩ := h1
    unfold FixtureDb.insert at h
    rw [if_neg (by rw [h1]; simp)] at h
    cases hn : r "name" with
    | none => exact absurd hn h2
    | some n =>
      simp only [hn] at h
      cases hi : r "id" with
      | none => simp [hi] at h
      | some i =>
        simp only [hi] at h
        injection h with h
        subst h
        exact ⟨ops.lower (ops.ofVal n), by simp [keyName, hn], rfl, rfl, rfl⟩

theorem synced_insert {ops : StrOps} {model : String} {s s' : FixLoop} {datatype : String} {r : Rec} (hs : Synced ops s) (h : s.insert ops model datatype r = .ok s') :
    Synced ops s' ∧ s'.index = s.index ∧ FixtureNames s <+: FixtureNames s' := by
  rcases insert_cases h with rfl | ⟨k, h1, h2, h3, h4⟩
  · exact ⟨hs, rfl, List.prefix_rfl⟩
  · refine ⟨⟨h4, ?_, ?_⟩, h3, ?_⟩
    · intro p hp
      rw [h2] at hp
      rcases dictSet_mem hp with hp | rfl
      · exact hs.names p hp
      · exact h1
    · unfold FixtureNames; rw [h2]; exact dictSet_nodup _ _ _ hs.nodup
    · unfold FixtureNames
      rw [h2, dictSet_keys]
      split_ifs
      · exact List.prefix_rfl
      · exact List.prefix_append _ _

theorem synced_reached {ops : StrOps} {model : String} {s : FixLoop} (h : Reached ops model s) : Synced ops s := by
  induction h with
  | init => exact ⟨rfl, by simp [FixLoop.init, FixtureDb.empty], by simp [FixtureNames, FixLoop.init, FixtureDb.empty]⟩
  | insert _ h ih => exact (synced_insert ih h).1
  | iter _ ih => exact ⟨rfl, ih.names, ih.nodup⟩
  | @next s r s' _ h ih =>
    unfold FixLoop.next at h
    cases hl : s.list[s.index]? with
    | none => simp [hl] at h
    | some r' =>
      simp only [hl, Option.some.injEq, Prod.mk.injEq] at h
      obtain ⟨-, rfl⟩ := h
      exact ⟨ih.list, ih.names, ih.nodup⟩

theorem synced_inserts {ops : StrOps} {model : String} {s t : FixLoop} (h : Inserts ops model s t) (hs : Synced ops s) :
    Synced ops t ∧ t.index = s.index ∧ FixtureNames s <+: FixtureNames t := by
  induction h with
  | none => exact ⟨hs, rfl, List.prefix_rfl⟩
  | one h _ ih =>
    obtain ⟨a, b, c⟩ := synced_insert hs h
    obtain ⟨a', b', c'⟩ := ih a
    exact ⟨a', b'.trans b, c.trans c'⟩

/-! ## Loops -/

/-- A body that inserts what it likes and yields the record. -/
def InsertingBody (ops : StrOps) (model : String) (body : Rec → FixLoop → FixLoop) : Prop := ∀ r s, Inserts ops model s (body r s)

/-- The records a loop with such a body goes through. -/
def visit (body : Rec → FixLoop → FixLoop) (fuel : ℕ) (s : FixLoop) : FixLoop × List Rec × Bool := s.loop (fun r s => (body r s, [r], false)) fuel

theorem rounds_names {ops : StrOps} {model : String} {body : Rec → FixLoop → FixLoop} (hb : InsertingBody ops model body) : ∀ (fuel : ℕ) (s : FixLoop), Synced ops s → s.index ≤ s.list.length →
    let t := FixLoop.rounds (fun r s => (body r s, [r], false)) fuel s
    Synced ops t.1 ∧ FixtureNames s <+: FixtureNames t.1 ∧ (t.2.2 = true → t.2.1.map (keyName ops) = ((FixtureNames t.1).drop s.index).map some)
  | 0, s, hs, hi => by
    simp only [FixLoop.rounds]
    exact ⟨hs, List.prefix_rfl, by simp⟩
  | fuel + 1, s, hs, hi => by
    simp only [FixLoop.rounds]
    have hlen : s.list.length = (FixtureNames s).length := by rw [hs.list]; simp [FixtureDb.values, FixtureNames]
    cases hn : s.list[s.index]? with
    | none =>
      have : s.next = none := by unfold FixLoop.next; rw [hn]
      rw [this]
      dsimp only
      refine ⟨hs, List.prefix_rfl, fun _ => ?_⟩
      rw [List.getElem?_eq_none_iff] at hn
      rw [List.drop_of_length_le (by omega)]
      rfl
    | some r =>
      have hnext : s.next = some (r, { s with index := s.index + 1 }) := by unfold FixLoop.next; rw [hn]
      rw [hnext]
      dsimp only
      rw [if_neg (by simp)]
      have hlt : s.index < s.list.length := (List.getElem?_eq_some_iff.1 hn).1
      have hs1 : Synced ops { s with index := s.index + 1 } := ⟨hs.list, hs.names, hs.nodup⟩
      obtain ⟨b1, b2, b3⟩ := synced_inserts (hb r { s with index := s.index + 1 }) hs1
      have hpre : FixtureNames s <+: FixtureNames (body r { s with index := s.index + 1 }) := b3
      have hlen' : (body r { s with index := s.index + 1 }).list.length = (FixtureNames (body r { s with index := s.index + 1 })).length := by
        rw [b1.list]; simp [FixtureDb.values, FixtureNames]
      have ih := rounds_names hb fuel (body r { s with index := s.index + 1 }) b1 (by rw [b2, hlen']; have := hpre.length_le; dsimp only; omega)
      dsimp only at ih
      obtain ⟨i1, i2, i3⟩ := ih
      refine ⟨i1, hpre.trans i2, fun he => ?_⟩
      rw [List.map_append, i3 he, b2]
      dsimp only
      -- the name of the record at the position
      have hname : (FixtureNames s)[s.index]? = keyName ops r := by
        rw [hs.list] at hn
        simp only [FixtureDb.values, List.getElem?_map, Option.map_eq_some_iff] at hn
        obtain ⟨p, hp, rfl⟩ := hn
        unfold FixtureNames
        rw [List.getElem?_map, hp, Option.map_some, hs.names p (List.mem_of_getElem? hp)]
      have hall := hpre.trans i2
      have hget : (FixtureNames (FixLoop.rounds (fun r s => (body r s, [r], false)) fuel (body r { s with index := s.index + 1 })).1)[s.index]? = keyName ops r := by
        obtain ⟨x, hx⟩ := hall
        rw [← hx, List.getElem?_append_left (by omega), hname]
      generalize FixtureNames (FixLoop.rounds (fun r s => (body r s, [r], false)) fuel (body r { s with index := s.index + 1 })).1 = N at *
      have hN : s.index < N.length := by have := hall.length_le; omega
      rw [List.drop_eq_getElem_cons hN, List.map_cons, List.map_cons, List.map_nil, List.singleton_append]
      rw [List.getElem?_eq_getElem hN] at hget
      rw [← hget]

/-- **C119, loops.**  A loop over a collection goes through every entry exactly once, in the order of the names, also through those that its body inserts, if the body does not move the iterator. -/
theorem C119_loop (ops : StrOps) (model : String) (s : FixLoop) (hs : Reached ops model s) (body : Rec → FixLoop → FixLoop) (hb : InsertingBody ops model body) (fuel : ℕ)
    (s' : FixLoop) (seen : List Rec) (h : visit body fuel s = (s', seen, true)) :
    seen.map (keyName ops) = (FixtureNames s').map some ∧ (FixtureNames s').Nodup ∧ FixtureNames s <+: FixtureNames s' := by
  have hs0 := synced_reached (Reached.iter hs)
  have := rounds_names hb fuel s.iter hs0 (by simp [FixLoop.iter])
  unfold visit FixLoop.loop at h
  rw [h] at this
  obtain ⟨a, b, c⟩ := this
  exact ⟨by simpa [FixLoop.iter] using c rfl, a.nodup, b⟩

theorem rounds_still : ∀ (fuel : ℕ) (s : FixLoop), s.index ≤ s.list.length → s.list.length < s.index + fuel →
    FixLoop.rounds (fun r s => (s, [r], false)) fuel s = ({ s with index := s.list.length }, s.list.drop s.index, true)
  | 0, s, h1, h2 => by omega
  | fuel + 1, s, h1, h2 => by
    simp only [FixLoop.rounds]
    cases hn : s.list[s.index]? with
    | none =>
      have : s.next = none := by unfold FixLoop.next; rw [hn]
      rw [this]
      rw [List.getElem?_eq_none_iff] at hn
      have he : s.index = s.list.length := by omega
      dsimp only
      rw [he, List.drop_length]
      congr 1
      cases s; simp only at he; simp [he]
    | some r =>
      have hnext : s.next = some (r, { s with index := s.index + 1 }) := by unfold FixLoop.next; rw [hn]
      rw [hnext]
      obtain ⟨hlt, hr⟩ := List.getElem?_eq_some_iff.1 hn
      dsimp only
      rw [if_neg (by simp), rounds_still fuel { s with index := s.index + 1 } (by dsimp only; omega) (by dsimp only; omega)]
      dsimp only
      rw [List.drop_eq_getElem_cons hlt, hr]
      rfl

/-- **C119, the end.**  A loop that leaves the collection alone comes to its end and sees the entries in the order of their insertion, whatever loops were left before their end. -/
theorem C119_ends (s : FixLoop) (fuel : ℕ) (hf : s.db.byName.length < fuel) : (visit (fun _ s => s) fuel s).2 = (s.db.values, true) := by
  unfold visit FixLoop.loop
  rw [rounds_still fuel s.iter (by simp [FixLoop.iter]) (by simpa [FixLoop.iter, FixtureDb.values] using hf)]
  simp [FixLoop.iter]

/-! ## Violations -/

/-- What a loop yields that does nothing but pair. -/
theorem rounds_pair (a : Rec) : ∀ (fuel : ℕ) (s : FixLoop), s.index ≤ s.list.length → s.list.length < s.index + fuel →
    FixLoop.rounds (fun b s => (s, [(a, b)], false)) fuel s = ({ s with index := s.list.length }, (s.list.drop s.index).map fun b => (a, b), true)
  | 0, s, h1, h2 => by omega
  | fuel + 1, s, h1, h2 => by
    simp only [FixLoop.rounds]
    cases hn : s.list[s.index]? with
    | none =>
      have : s.next = none := by unfold FixLoop.next; rw [hn]
      rw [this]
      rw [List.getElem?_eq_none_iff] at hn
      have he : s.index = s.list.length := by omega
      dsimp only
      rw [he, List.drop_length]
      congr 1
      cases s; simp only at he; simp [he]
    | some r =>
      have hnext : s.next = some (r, { s with index := s.index + 1 }) := by unfold FixLoop.next; rw [hn]
      rw [hnext]
      obtain ⟨hlt, hr⟩ := List.getElem?_eq_some_iff.1 hn
      dsimp only
      rw [if_neg (by simp), rounds_pair a fuel { s with index := s.index + 1 } (by dsimp only; omega) (by dsimp only; omega)]
      dsimp only
      rw [List.drop_eq_getElem_cons hlt, hr]
      rfl

theorem db_first {s : FixLoop} {r : Rec} {l : List Rec} (h : s.db.values = r :: l) (fuel : ℕ) {β : Type} (body : Rec → FixLoop → FixLoop × List β × Bool) :
    s.loop body (fuel + 1) = (let b := body r { s with index := 1, list := r :: l }; if b.2.2 then (b.1, b.2.1, true) else
      let rest := FixLoop.rounds body fuel b.1; (rest.1, b.2.1 ++ rest.2.1, rest.2.2)) := by
  unfold FixLoop.loop
  simp only [FixLoop.rounds]
  have : s.iter.next = some (r, { s with index := 1, list := r :: l }) := by
    unfold FixLoop.next FixLoop.iter
    simp [h]
  rw [this]

/-- **C119, violated: nested loops.**  Two nested loops over the same collection see only the pairs with its first entry, for every collection: the inner loop also ends the outer one. -/
theorem C119_nested_violated (s : FixLoop) (r : Rec) (l : List Rec) (h : s.db.values = r :: l) (fuel : ℕ) (hf : l.length + 1 < fuel) :
    (s.pairs fuel).2 = ((r :: l).map fun b => (r, b), true) := by
  obtain ⟨fuel, rfl⟩ : ∃ k, fuel = k + 1 := ⟨fuel - 1, by omega⟩
  unfold FixLoop.pairs
  rw [db_first h]
  dsimp only
  rw [if_neg (by simp)]
  have inner : FixLoop.loop (fun b s => (s, [(r, b)], false)) (fuel + 1) { s with index := 1, list := r :: l } =
      ({ s with index := (r :: l).length, list := r :: l }, (r :: l).map (fun b => (r, b)), true) := by
    unfold FixLoop.loop
    have hv : FixLoop.iter { s with index := 1, list := r :: l } = { s with index := 0, list := r :: l } := by simp [FixLoop.iter, h]
    rw [hv, rounds_pair r (fuel + 1) _ (by simp) (by simpa using hf)]
    simp
  rw [inner]
  dsimp only
  obtain ⟨fuel, rfl⟩ : ∃ k, fuel = k + 1 := ⟨fuel - 1, by omega⟩
  have hend : FixLoop.next { s with index := (r :: l).length, list := r :: l } = none := by
    unfold FixLoop.next; simp
  simp only [FixLoop.rounds, hend]
  simp

/-- **C119, violated: nested loops may never end.**  If the inner loop is left at its first entry, the outer one goes on with the second entry again and again, for every collection of two or more. -/
theorem C119_endless_violated (s : FixLoop) (r r' : Rec) (l : List Rec) (h : s.db.values = r :: r' :: l) (fuel : ℕ) :
    (s.firsts fuel).2.2 = false ∧ (s.firsts fuel).2.1 = ((List.range fuel).map fun k => (if k = 0 then r else r', r)) := by
  unfold FixLoop.firsts
  cases fuel with
  | zero => exact ⟨rfl, rfl⟩
  | succ fuel =>
    -- the inner loop
    have inner : ∀ (a : Rec) (i : ℕ), FixLoop.loop (fun b s => (s, [(a, b)], true)) (fuel + 1) { s with index := i, list := r :: r' :: l } =
        ({ s with index := 1, list := r :: r' :: l }, [(a, r)], true) := by
      intro a i
      rw [db_first (s := { s with index := i, list := r :: r' :: l }) h]
      rfl
    have step : ∀ n, FixLoop.rounds (fun a s => ((s.loop (fun b s => (s, [(a, b)], true)) (fuel + 1)).1, (s.loop (fun b s => (s, [(a, b)], true)) (fuel + 1)).2.1, false)) n { s with index := 1, list := r :: r' :: l } =
        ({ s with index := 1, list := r :: r' :: l }, List.replicate n (r', r), false) := by
      intro n
      induction n with
      | zero => rfl
      | succ n ih =>
        simp only [FixLoop.rounds]
        have hn : FixLoop.next { s with index := 1, list := r :: r' :: l } = some (r', { s with index := 2, list := r :: r' :: l }) := by
          unfold FixLoop.next; simp
        rw [hn]
        dsimp only
        rw [inner r' 2, if_neg (by simp)]
        dsimp only
        rw [ih]
        rfl
    rw [db_first h]
    dsimp only
    rw [inner r 1, if_neg (by simp)]
    dsimp only
    rw [step fuel]
    refine ⟨rfl, ?_⟩
    dsimp only
    rw [List.range_succ_eq_map, List.map_cons, if_pos rfl, List.map_map]
    rw [List.singleton_append]
    congr 1
    symm
    rw [List.eq_replicate_iff]
    refine ⟨by rw [List.length_map, List.length_range], ?_⟩
    intro b hb
    obtain ⟨k, -, rfl⟩ := List.mem_map.1 hb
    simp

/-- **C119, violated: names.**  A name is never found in a collection by `in`, although it is there and can be looked up. -/
theorem C119_member_violated (ops : StrOps) (s : FixLoop) (name : String) (hn : ops.lower name ∈ FixtureNames s) (fuel : ℕ) :
    (∃ r, s.db.getItem ops (.str name) = .ok r) ∧ (s.containsText name fuel).2 = false := by
  constructor
  · cases hd : dictGet s.db.byName (ops.lower name) with
    | none => exact absurd hn ((dictGet_none_iff _ _).1 hd)
    | some r => exact ⟨r, by simp [FixtureDb.getItem, hd]⟩
  unfold FixLoop.containsText FixLoop.contains FixLoop.loop
  have : ∀ fuel s, (FixLoop.rounds (fun _ s => (s, ([] : List Unit), false)) fuel s).2.1 = [] := by
    intro fuel
    induction fuel with
    | zero => intro s; rfl
    | succ n ih =>
      intro s
      simp only [FixLoop.rounds]
      cases s.next with
      | none => rfl
      | some p => simp [ih]
  simp [this]

theorem rounds_none : ∀ (fuel : ℕ) (s : FixLoop), s.index ≤ s.list.length → s.list.length < s.index + fuel →
    FixLoop.rounds (fun _ s => (s, ([] : List Unit), false)) fuel s = ({ s with index := s.list.length }, [], true)
  | 0, s, h1, h2 => by omega
  | fuel + 1, s, h1, h2 => by
    simp only [FixLoop.rounds]
    cases hn : s.list[s.index]? with
    | none =>
      have : s.next = none := by unfold FixLoop.next; rw [hn]
      rw [this]
      rw [List.getElem?_eq_none_iff] at hn
      have he : s.index = s.list.length := by omega
      dsimp only
      congr 1
      cases s; simp only at he; simp [he]
    | some r =>
      have hnext : s.next = some (r, { s with index := s.index + 1 }) := by unfold FixLoop.next; rw [hn]
      rw [hnext]
      obtain ⟨hlt, hr⟩ := List.getElem?_eq_some_iff.1 hn
      dsimp only
      rw [if_neg (by simp), rounds_none fuel { s with index := s.index + 1 } (by dsimp only; omega) (by dsimp only; omega)]
      rfl

/-- **C119, violated: tests in a loop.**  A loop whose body tests for a name by `in` ends after its first round, for every collection. -/
theorem C119_test_violated (s : FixLoop) (r : Rec) (l : List Rec) (h : s.db.values = r :: l) (name : String) (fuel : ℕ) (hf : l.length + 1 < fuel) :
    (visit (fun _ s => (s.containsText name fuel).1) fuel s).2 = ([r], true) := by
  obtain ⟨fuel, rfl⟩ : ∃ k, fuel = k + 1 := ⟨fuel - 1, by omega⟩
  unfold visit
  rw [db_first h]
  dsimp only
  rw [if_neg (by simp)]
  have inner : (FixLoop.containsText name (fuel + 1) { s with index := 1, list := r :: l }).1 = { s with index := (r :: l).length, list := r :: l } := by
    unfold FixLoop.containsText FixLoop.contains FixLoop.loop
    have hv : FixLoop.iter { s with index := 1, list := r :: l } = { s with index := 0, list := r :: l } := by simp [FixLoop.iter, h]
    have := rounds_none (fuel + 1) { s with index := 0, list := r :: l } (by simp) (by simpa using hf)
    simp only [Bool.false_eq_true, if_false]
    rw [hv, this]
  rw [inner]
  obtain ⟨fuel, rfl⟩ : ∃ k, fuel = k + 1 := ⟨fuel - 1, by omega⟩
  have hend : FixLoop.next { s with index := (r :: l).length, list := r :: l } = none := by
    unfold FixLoop.next; simp
  simp only [FixLoop.rounds, hend]
  simp

/-! ## Examples -/

/-- Three records and a loop over the first two, that inserts the third in its first round. -/
def recA : Rec := fun k => if k = "name" then some (.str "a") else if k = "id" then some (.int 1) else none
def recB : Rec := fun k => if k = "name" then some (.str "b") else if k = "id" then some (.int 2) else none
def recC : Rec := fun k => if k = "name" then some (.str "c") else if k = "id" then some (.int 3) else none

/-- Texts stay as they are. -/
def loopOps : StrOps := ⟨fun v => match v with | .str s => s | _ => "", fun s => s, fun _ => none⟩

def loopAB : FixLoop := ⟨⟨[("a", recA), ("b", recB)], [(.int 1, recA), (.int 2, recB)]⟩, 0, [recA, recB]⟩

/-- The body: insert the third record. -/
def insertC (_ : Rec) (s : FixLoop) : FixLoop :=
  match s.insert loopOps "x" "x" recC with
  | .ok s => s
  | .error _ => s

example : Reached loopOps "x" loopAB :=
  .insert (.insert .init (r := recA) (datatype := "x") rfl) (r := recB) (datatype := "x") rfl

example : InsertingBody loopOps "x" insertC := by
  intro r s
  unfold insertC
  cases h : s.insert loopOps "x" "x" recC with
  | ok s' => exact .one h .none
  | error e => exact .none

example : (visit insertC 9 loopAB).2.1.map (keyName loopOps) = [some "a", some "b", some "c"] ∧ (visit insertC 9 loopAB).2.2 = true := by decide +kernel

example : ((loopAB.pairs 9).2.1.map fun p => (keyName loopOps p.1, keyName loopOps p.2)) = [(some "a", some "a"), (some "a", some "b")] := by decide +kernel

end Verif.Props
