import Verif.Model.Fixtures
import Mathlib.Data.List.Basic
import Mathlib.Data.Set.Finite.Lattice
import Mathlib.Data.Fintype.Pigeonhole
import Mathlib.Tactic.Common

/-!
# C49, C50, C51: lookups and inheritance in the data base
-/

namespace Verif.Props
open Verif.Py Verif.Model

/-! ## Dictionaries -/

theorem dictGet_set {κ α : Type} [DecidableEq κ] (k k' : κ) (v : α) : ∀ d : List (κ × α), dictGet (dictSet d k v) k' = if k' = k then some v else dictGet d k'
  | [] => by
    by_cases h : k' = k
    · subst h; simp [dictSet, dictGet]
    · simp [dictSet, dictGet, h, Ne.symm h]
  | (a, b) :: t => by
    have ih := dictGet_set k k' v t
    rw [dictSet]
    by_cases h : a = k
    · subst h
      rw [if_pos rfl, dictGet, dictGet]
      by_cases h' : a = k'
      · subst h'; simp
      · simp [h', Ne.symm h']
    · rw [if_neg h, dictGet, dictGet, ih]
      by_cases h' : a = k'
      · subst h'; simp [h]
      · simp [h']

/-! ## C49: histories of insertions -/

/-- Insert all elements of a history, oldest first. -/
def build (ops : StrOps) (model : String) : FixtureDb → List (String × Rec) → Except PyErr FixtureDb
  | db, [] => .ok db
  | db, (t, r) :: h =>
    match db.insert ops model t r with
    | .error e => .error e
    | .ok db' => build ops model db' h

/-- The data of the latest entry of the history that has the wanted data type, carries a name and satisfies `p`; `dflt` if there is none. -/
def latest (ops : StrOps) (model : String) (p : Rec → Bool) (dflt : Option Rec) : List (String × Rec) → Option Rec
  | [] => dflt
  | (t, r) :: h => latest ops model p (if ops.lower t = ops.lower model ∧ (r "name").isSome ∧ p r then some r else dflt) h

/-- The entry is called `k`, whatever the letter case. -/
def isNamed (ops : StrOps) (k : String) (r : Rec) : Bool :=
  match r "name" with
  | some n => ops.lower (ops.ofVal n) = ops.lower k
  | none => false

/-- The entry has the id `i`. -/
def hasId (i : Val) (r : Rec) : Bool := r "id" = some i

theorem build_byName (ops : StrOps) (model k : String) : ∀ (h : List (String × Rec)) (db db' : FixtureDb), build ops model db h = .ok db' →
    dictGet db'.byName (ops.lower k) = latest ops model (isNamed ops k) (dictGet db.byName (ops.lower k)) h
  | [], db, db', hb => by cases hb; rfl
  | (t, r) :: h, db, db', hb => by
    rw [build] at hb
    rw [latest]
    cases hi : db.insert ops model t r with
    | error e => rw [hi] at hb; cases hb
    | ok db1 =>
      rw [hi] at hb
      rw [build_byName ops model k h db1 db' hb]
      congr 1
      unfold FixtureDb.insert at hi
      by_cases ht : ops.lower t = ops.lower model
      · rw [if_neg (not_not.mpr ht)] at hi
        cases hn : r "name" with
        | none => rw [hn] at hi; cases hi; simp
        | some n =>
          rw [hn] at hi
          cases hid : r "id" with
          | none => rw [hid] at hi; cases hi
          | some i =>
            rw [hid] at hi
            cases hi
            simp only [dictGet_set, isNamed, hn, ht, Option.isSome_some, true_and, decide_eq_true_eq]
            exact ite_congr (propext eq_comm) (fun _ => rfl) (fun _ => rfl)
      · rw [if_pos ht] at hi
        cases hi
        simp [ht]

theorem build_byId (ops : StrOps) (model : String) (i : Val) : ∀ (h : List (String × Rec)) (db db' : FixtureDb), build ops model db h = .ok db' →
    dictGet db'.byId i = latest ops model (hasId i) (dictGet db.byId i) h
  | [], db, db', hb => by cases hb; rfl
  | (t, r) :: h, db, db', hb => by
    rw [build] at hb
    rw [latest]
    cases hi : db.insert ops model t r with
    | error e => rw [hi] at hb; cases hb
    | ok db1 =>
      rw [hi] at hb
      rw [build_byId ops model i h db1 db' hb]
      congr 1
      unfold FixtureDb.insert at hi
      by_cases ht : ops.lower t = ops.lower model
      · rw [if_neg (not_not.mpr ht)] at hi
        cases hn : r "name" with
        | none => rw [hn] at hi; cases hi; simp
        | some n =>
          rw [hn] at hi
          cases hid : r "id" with
          | none => rw [hid] at hi; cases hi
          | some j =>
            rw [hid] at hi
            cases hi
            simp only [dictGet_set, hasId, hid, ht, Option.isSome_some, true_and, decide_eq_true_eq, Option.some.injEq]
            exact ite_congr (propext eq_comm) (fun _ => rfl) (fun _ => rfl)
      · rw [if_pos ht] at hi
        cases hi
        simp [ht]

/-- **C49, lookup.**  After any history of insertions, a query by name returns the entry inserted last under this name in any letter case, a query by id the entry inserted last
with this id; for unknown names and ids a ValueError is raised. -/
theorem C49_latest (ops : StrOps) (model : String) (h : List (String × Rec)) (db : FixtureDb) (hb : build ops model .empty h = .ok db) :
    (∀ k, db.queryName ops k = match latest ops model (isNamed ops k) none h with | some r => .ok r | none => .error .valueError) ∧
    (∀ n, db.queryId n = match latest ops model (hasId (.int n)) none h with | some r => .ok r | none => .error .valueError) := by
  constructor
  · intro k
    unfold FixtureDb.queryName
    rw [build_byName ops model k h .empty db hb]
    rfl
  · intro n
    unfold FixtureDb.queryId
    rw [build_byId ops model (.int n) h .empty db hb]
    rfl

/-- **C49, letter case.**  Keys that differ in letter case only give the same result. -/
theorem C49_case (ops : StrOps) (db : FixtureDb) (a b : String) (hab : ops.lower a = ops.lower b) :
    db.queryName ops a = db.queryName ops b ∧ db.getItem ops (.str a) = db.getItem ops (.str b) := by
  unfold FixtureDb.queryName FixtureDb.getItem
  simp only [hab]
  exact ⟨trivial, trivial⟩

/-- **C49, item access.**  `fixture[key]` finds by name first, then a string of digits by id, and raises a ValueError for everything unknown. -/
theorem C49_getItem (ops : StrOps) (db : FixtureDb) (k : String) :
    (∀ r, db.queryName ops k = .ok r → db.getItem ops (.str k) = .ok r) ∧
    (∀ e, db.queryName ops k = .error e → db.getItem ops (.str k) = match ops.digit (ops.lower k) with | some n => db.queryId n | none => .error .valueError) ∧
    (∀ n, db.getItem ops (.int n) = db.queryId n) := by
  refine ⟨?_, ?_, fun n => rfl⟩
  · intro r h
    unfold FixtureDb.queryName at h
    unfold FixtureDb.getItem
    cases hd : dictGet db.byName (ops.lower k) with
    | none => rw [hd] at h; cases h
    | some x => rw [hd] at h; cases h; simp only [hd]
  · intro e h
    unfold FixtureDb.queryName at h
    unfold FixtureDb.getItem FixtureDb.queryId
    cases hd : dictGet db.byName (ops.lower k) with
    | none => simp only [hd]; cases ops.digit (ops.lower k) <;> rfl
    | some x => rw [hd] at h; cases h

/-- **C49, items of the client.**  An id wins over a name; a query without both raises a ValueError. -/
theorem C49_item (ops : StrOps) (db : FixtureDb) : (∀ i s, db.queryItem ops (some i) s = db.queryId i) ∧ (∀ s, db.queryItem ops none (some s) = db.queryName ops s) ∧
    db.queryItem ops none none = .error .valueError := ⟨fun _ _ => rfl, fun _ => rfl, rfl⟩

/-- In a history, equal names belong to equal ids and the other way round. -/
def Matched (ops : StrOps) (h : List (String × Rec)) : Prop :=
  ∀ x ∈ h, ∀ y ∈ h, ∀ n m i j, x.2 "name" = some n → y.2 "name" = some m → x.2 "id" = some i → y.2 "id" = some j →
    (ops.lower (ops.ofVal n) = ops.lower (ops.ofVal m) ↔ i = j)

theorem latest_mem (ops : StrOps) (model : String) (p : Rec → Bool) : ∀ (h : List (String × Rec)) (d : Option Rec) (r : Rec), latest ops model p d h = some r →
    d = some r ∨ (∃ t, (t, r) ∈ h ∧ p r = true ∧ (r "name").isSome)
  | [], d, r, h => .inl h
  | (t, x) :: h, d, r, hl => by
    rw [latest] at hl
    rcases latest_mem ops model p h _ r hl with h1 | ⟨t', h1, h2⟩
    · split_ifs at h1 with hc
      · cases h1
        exact .inr ⟨t, by simp, hc.2.2, hc.2.1⟩
      · exact .inl h1
    · exact .inr ⟨t', List.mem_cons_of_mem _ h1, h2⟩

theorem latest_congr (ops : StrOps) (model : String) (p q : Rec → Bool) : ∀ (h : List (String × Rec)) (d : Option Rec),
    (∀ x ∈ h, (x.2 "name").isSome → ops.lower x.1 = ops.lower model → p x.2 = q x.2) → latest ops model p d h = latest ops model q d h
  | [], d, _ => rfl
  | (t, x) :: h, d, hpq => by
    rw [latest, latest, latest_congr ops model p q h _ (fun y hy => hpq y (List.mem_cons_of_mem _ hy))]
    congr 1
    have := hpq (t, x) (by simp)
    refine ite_congr (propext ⟨?_, ?_⟩) (fun _ => rfl) (fun _ => rfl)
    · rintro ⟨a, b, c⟩; exact ⟨a, b, by rw [← this b a]; exact c⟩
    · rintro ⟨a, b, c⟩; exact ⟨a, b, by rw [this b a]; exact c⟩

theorem build_ids (ops : StrOps) (model : String) : ∀ (h : List (String × Rec)) (db db' : FixtureDb), build ops model db h = .ok db' →
    ∀ x ∈ h, ops.lower x.1 = ops.lower model → (x.2 "name").isSome → (x.2 "id").isSome
  | [], _, _, _ => by simp
  | (t, r) :: h, db, db', hb => by
    rw [build] at hb
    cases hi : db.insert ops model t r with
    | error e => rw [hi] at hb; cases hb
    | ok db1 =>
      rw [hi] at hb
      intro x hx ht hn
      rcases List.mem_cons.mp hx with rfl | hx
      · unfold FixtureDb.insert at hi
        simp only at ht hn
        rw [if_neg (not_not.mpr ht)] at hi
        obtain ⟨n, hn'⟩ := Option.isSome_iff_exists.mp hn
        rw [hn'] at hi
        cases hid : r "id" with
        | none => rw [hid] at hi; cases hi
        | some i => simp [hid]
      · exact build_ids ops model h db1 db' hb x hx ht hn

/-- **C49, names and ids agree (partial: no two names share an id, no name has two ids).**  Then looking up an entry by its name and by its id gives the same data. -/
theorem C49_agree_partial (ops : StrOps) (model : String) (h : List (String × Rec)) (db : FixtureDb) (hb : build ops model .empty h = .ok db) (hm : Matched ops h)
    (k : String) (r : Rec) (i : ℤ) (hq : db.queryName ops k = .ok r) (hi : r "id" = some (.int i)) : db.queryId i = .ok r := by
  obtain ⟨h1, h2⟩ := C49_latest ops model h db hb
  rw [h1 k] at hq
  rw [h2 i]
  have hl : latest ops model (isNamed ops k) none h = some r := by
    cases hl : latest ops model (isNamed ops k) none h with
    | none => rw [hl] at hq; cases hq
    | some x => rw [hl] at hq; cases hq; rfl
  rcases latest_mem ops model _ h none r hl with h0 | ⟨t, hmem, hp, hs⟩
  · cases h0
  · obtain ⟨n, hn⟩ := Option.isSome_iff_exists.mp hs
    have hkn : ops.lower (ops.ofVal n) = ops.lower k := by simpa [isNamed, hn] using hp
    have : latest ops model (hasId (.int i)) none h = latest ops model (isNamed ops k) none h := by
      refine latest_congr ops model _ _ h none ?_
      intro x hx hxn hxt
      obtain ⟨m, hm'⟩ := Option.isSome_iff_exists.mp hxn
      obtain ⟨j, hj⟩ := Option.isSome_iff_exists.mp (build_ids ops model h .empty db hb x hx hxt hxn)
      have hiff := hm x hx (t, r) hmem m n j (.int i) hm' hn hj hi
      simp only [hasId, isNamed, hm', hj]
      rw [← hkn, Bool.eq_iff_iff, decide_eq_true_eq, decide_eq_true_eq, hiff, Option.some.injEq]
    rw [this, hl]

/-! ### A concrete data base -/

/-- An entry. -/
def entry (name : String) (id : ℤ) (fields : List (String × Val)) : String × Rec :=
  ("T", fun k => if k = "name" then some (.str name) else if k = "id" then some (.int id) else dictGet fields k)

/-- Plain string operations: names are compared as they are. -/
def plainOps : StrOps := ⟨fun v => match v with | .str s => s | _ => "", fun s => if s = "Base" then "base" else s, fun s => if s = "7" then some 7 else none⟩

def hist1 : List (String × Rec) := [entry "base" 1 [("a", .int 10), ("b", .int 20)], entry "mid" 2 [("inherit_from", .str "Base"), ("b", .int 21), ("c", .int 31)],
  entry "top" 7 [("inherit_from", .str "mid"), ("c", .int 32)]]

/-- The result of a history or the empty data base. -/
def dbOf (h : List (String × Rec)) : FixtureDb := match build plainOps "T" .empty h with | .ok db => db | .error _ => .empty

/-- A field of a result. -/
def field (x : Except PyErr Rec) (k : String) : Option Val := match x with | .ok r => r k | .error _ => none

example : field ((dbOf hist1).queryName plainOps "Base") "a" = some (.int 10) ∧ field ((dbOf hist1).queryId 2) "b" = some (.int 21) ∧
    field ((dbOf hist1).getItem plainOps (.str "7")) "c" = some (.int 32) := by decide +kernel

/-- **C49 violated: names and ids.**  Two entries with the same id: the first is found by its name, but its id leads to the second. -/
theorem C49_agree_violated : ∃ h, (∃ db, build plainOps "T" .empty h = .ok db) ∧ field ((dbOf h).queryName plainOps "x") "id" = some (.int 1) ∧
    field ((dbOf h).queryId 1) "name" = some (.str "y") := by
  refine ⟨[entry "x" 1 [], entry "y" 1 []], ⟨_, rfl⟩, ?_⟩
  decide +kernel

/-! ## C50, C51: inheritance -/

/-- What holds of a data base built by insertions: entries are filed under their own name and id. -/
def Filed (ops : StrOps) (db : FixtureDb) : Prop :=
  (∀ k r, dictGet db.byName k = some r → ∃ n, r "name" = some n ∧ ops.lower (ops.ofVal n) = k) ∧ (∀ i r, dictGet db.byId i = some r → r "id" = some i ∧ (r "name").isSome)

theorem filed_insert (ops : StrOps) (model : String) {db db' : FixtureDb} {t : String} {r : Rec} (h : Filed ops db) (hi : db.insert ops model t r = .ok db') : Filed ops db' := by
  unfold FixtureDb.insert at hi
  split_ifs at hi with ht
  · cases hi; exact h
  · cases hn : r "name" with
    | none => rw [hn] at hi; cases hi; exact h
    | some n =>
      rw [hn] at hi
      cases hid : r "id" with
      | none => rw [hid] at hi; cases hi
      | some i =>
        rw [hid] at hi
        cases hi
        constructor
        · intro k x hx
          rw [dictGet_set] at hx
          split_ifs at hx with hk
          · cases hx; exact ⟨n, hn, hk.symm⟩
          · exact h.1 k x hx
        · intro j x hx
          rw [dictGet_set] at hx
          split_ifs at hx with hk
          · cases hx; rw [hk]; exact ⟨hid, by simp [hn]⟩
          · exact h.2 j x hx

/-- Every data base built by insertions is filed. -/
theorem filed_build (ops : StrOps) (model : String) : ∀ (h : List (String × Rec)) (db db' : FixtureDb), Filed ops db → build ops model db h = .ok db' → Filed ops db'
  | [], db, db', hf, hb => by cases hb; exact hf
  | (t, r) :: h, db, db', hf, hb => by
    rw [build] at hb
    cases hi : db.insert ops model t r with
    | error e => rw [hi] at hb; cases hb
    | ok db1 => rw [hi] at hb; exact filed_build ops model h db1 db' (filed_insert ops model hf hi) hb

theorem filed_empty (ops : StrOps) : Filed ops .empty := ⟨fun k r h => (by cases h), fun k r h => (by cases h)⟩

/-- The ancestors reached from a key: each names its parent, the last one has none. -/
inductive Ancestors (ops : StrOps) (db : FixtureDb) : Val → List (Val × Rec) → Prop
  | last (s : String) (r : Rec) (h1 : db.getItem ops (.str s) = .ok r) (h2 : r "inherit_from" = none) : Ancestors ops db (.str s) [(.str s, r)]
  | step (k k' : Val) (r : Rec) (rs : List (Val × Rec)) (h1 : db.getItem ops k = .ok r) (h2 : r "inherit_from" = some k') (h3 : Ancestors ops db k' rs) :
      Ancestors ops db k ((k, r) :: rs)

/-- The first of several dictionaries that has a key. -/
def nearest (f : String) : List Rec → Option Val
  | [] => none
  | r :: l => match r f with | some v => some v | none => nearest f l

theorem known_base {ops : StrOps} {db : FixtureDb} (hf : Filed ops db) {s : String} {r : Rec} (h : db.getItem ops (.str s) = .ok r) :
    db.known ops (r.set "name" (.str s)) = .ok (some r) := by
  unfold FixtureDb.known
  simp only [Rec.set, if_true]
  unfold FixtureDb.getItem at h
  simp only at h
  cases hn : dictGet db.byName (ops.lower s) with
  | some x => rw [hn] at h; cases h; rfl
  | none =>
    rw [hn] at h
    simp only at h ⊢
    cases hd : ops.digit (ops.lower s) with
    | none => rw [hd] at h; cases h
    | some n =>
      rw [hd] at h
      simp only at h
      cases hi : dictGet db.byId (.int n) with
      | none => rw [hi] at h; cases h
      | some x =>
        rw [hi] at h
        cases h
        have := (hf.2 _ _ hi).1
        rw [if_neg (by decide), this]
        simp only [Option.bind_some, hi]

theorem over_apply (a b : Rec) (f : String) : a.over b f = match a f with | some v => some v | none => b f := rfl

/-- Resolution of an entry of the data base reached by its key. -/
theorem inherit_base {ops : StrOps} {db : FixtureDb} (hf : Filed ops db) {k : Val} {rs : List (Val × Rec)} (h : Ancestors ops db k rs) :
    ∀ (r : Rec), db.getItem ops k = .ok r → ∀ (fuel : ℕ) (chain : List Val), rs.length ≤ fuel → chain ≠ [] →
      ∃ res, db.inheritance ops fuel (r.set "name" k) chain = .ok (res, chain ++ rs.tail.map (·.1)) ∧ res "inherit_from" = none ∧ res "name" = some k ∧
        ∀ f, f ≠ "inherit_from" → f ≠ "name" → res f = nearest f (rs.map (·.2)) := by
  induction h with
  | last s r0 h1 h2 =>
    intro r hr fuel chain hfuel hc
    rw [h1] at hr
    cases hr
    obtain ⟨fuel, rfl⟩ : ∃ n, fuel = n + 1 := ⟨fuel - 1, by simp at hfuel; omega⟩
    have hnone : (r0.set "name" (.str s)) "inherit_from" = none := by simp [Rec.set, h2]
    rw [FixtureDb.inheritance, hnone]
    simp only
    rw [known_base hf h1]
    simp only
    have hm : ((r0.set "name" (.str s)).over r0) "inherit_from" = none := by simp [over_apply, hnone, h2]
    rw [hm]
    refine ⟨_, by simp, hm, by simp [over_apply, Rec.set], ?_⟩
    intro f hf1 hf2
    simp only [over_apply, Rec.set, if_neg hf2, List.map_cons, List.map_nil, nearest]
    cases r0 f <;> rfl
  | step k k' r0 rs h1 h2 h3 ih =>
    intro r hr fuel chain hfuel hc
    rw [h1] at hr
    cases hr
    obtain ⟨fuel, rfl⟩ : ∃ n, fuel = n + 1 := ⟨fuel - 1, by simp at hfuel; omega⟩
    have hsome : (r0.set "name" k) "inherit_from" = some k' := by simp [Rec.set, h2]
    rw [FixtureDb.inheritance, hsome]
    simp only
    have hst : chainStart ((r0.set "name" k).del "inherit_from") k' chain = .ok chain := by
      unfold chainStart
      simp only [Rec.del, Rec.set]
      rw [if_neg (by decide)]
      simp only [if_true]
      rw [if_neg]
      cases chain with
      | nil => exact absurd rfl hc
      | cons => simp
    rw [hst]
    simp only
    obtain ⟨r1, hr1⟩ : ∃ r1, db.getItem ops k' = .ok r1 := by cases h3 with | last s r g1 g2 => exact ⟨_, g1⟩ | step a b r l g1 g2 g3 => exact ⟨_, g1⟩
    rw [hr1]
    simp only
    obtain ⟨res, e1, e2, e3, e4⟩ := ih r1 hr1 fuel (chain ++ [k']) (by simp at hfuel; omega) (by simp)
    rw [e1]
    simp only
    refine ⟨((r0.set "name" k).del "inherit_from").over res, ?_, ?_, ?_, ?_⟩
    · congr 2
      have : rs.map (·.1) = k' :: rs.tail.map (·.1) := by cases h3 <;> rfl
      rw [List.tail_cons, this]
      simp
    · simp [over_apply, Rec.del, e2]
    · simp [over_apply, Rec.del, Rec.set]
    · intro f hf1 hf2
      simp only [over_apply, Rec.del, Rec.set, if_neg hf1, if_neg hf2, List.map_cons, nearest]
      cases r0 f with
      | none => exact e4 f hf1 hf2
      | some v => rfl

/-- **C50, explicit inheritance.**  Values that name a parent: each field of the result is the own one if given, else that of the nearest ancestor that has it.
The link is removed; the name stays the own one, without own name it is that of the parent as written.  The chain returned lists the own name and the ancestors.
`fuel` is the depth of calls the interpreter allows. -/
theorem C50_inherit (ops : StrOps) (db : FixtureDb) (hf : Filed ops db) (values : Rec) (k : Val) (rs : List (Val × Rec)) (hk : values "inherit_from" = some k)
    (hne : values "name" ≠ some k) (h : Ancestors ops db k rs) (fuel : ℕ) (hfuel : rs.length + 1 ≤ fuel) :
    ∃ res chain, db.inheritance ops fuel values [] = .ok (res, chain) ∧ res "inherit_from" = none ∧ res "name" = some ((values "name").getD k) ∧
      (∀ f, f ≠ "inherit_from" → f ≠ "name" → res f = nearest f (values :: rs.map (·.2))) ∧ chain = (values "name").toList ++ rs.map (·.1) := by
  obtain ⟨fuel, rfl⟩ : ∃ n, fuel = n + 1 := ⟨fuel - 1, by omega⟩
  rw [FixtureDb.inheritance, hk]
  simp only
  have hst : chainStart (values.del "inherit_from") k [] = .ok (values "name").toList := by
    unfold chainStart
    have : (values.del "inherit_from") "name" = values "name" := by simp [Rec.del]
    rw [this]
    cases hn : values "name" with
    | none => rfl
    | some n =>
      simp only [List.length_nil, Nat.lt_one_iff, List.not_mem_nil, if_false, if_true, Option.toList]
      rw [if_neg (by rintro rfl; exact hne hn)]
      rfl
  rw [hst]
  simp only
  obtain ⟨r1, hr1⟩ : ∃ r1, db.getItem ops k = .ok r1 := by cases h with | last s r g1 g2 => exact ⟨_, g1⟩ | step a b r l g1 g2 g3 => exact ⟨_, g1⟩
  rw [hr1]
  simp only
  obtain ⟨res, e1, e2, e3, e4⟩ := inherit_base hf h r1 hr1 fuel ((values "name").toList ++ [k]) (by omega) (by simp)
  rw [e1]
  simp only
  refine ⟨_, _, rfl, ?_, ?_, ?_, ?_⟩
  · simp [over_apply, Rec.del, e2]
  · simp only [over_apply, Rec.del]
    rw [if_neg (by decide), e3]
    cases values "name" <;> rfl
  · intro f hf1 hf2
    simp only [over_apply, Rec.del, if_neg hf1, nearest]
    cases values f with
    | none => exact e4 f hf1 hf2
    | some v => rfl
  · have : rs.map (·.1) = k :: rs.tail.map (·.1) := by cases h <;> rfl
    rw [this]; simp

/-- The entry of the data base that values without "inherit_from" refer to: by name (in any letter case), else by id. -/
def Refers (ops : StrOps) (db : FixtureDb) (values x : Rec) : Prop :=
  (∃ s, values "name" = some (.str s) ∧ db.queryName ops s = .ok x) ∨
  ((values "name" = none ∨ ∃ s, values "name" = some (.str s) ∧ db.queryName ops s = .error .valueError) ∧ ∃ i, values "id" = some i ∧ dictGet db.byId i = some x)

theorem known_refers {ops : StrOps} {db : FixtureDb} {values x : Rec} (h : Refers ops db values x) : db.known ops values = .ok (some x) := by
  unfold FixtureDb.known
  rcases h with ⟨s, h1, h2⟩ | ⟨h1, i, h2, h3⟩
  · rw [h1]
    simp only
    unfold FixtureDb.queryName at h2
    cases hd : dictGet db.byName (ops.lower s) with
    | none => rw [hd] at h2; cases h2
    | some y => rw [hd] at h2; cases h2; rfl
  · rcases h1 with h1 | ⟨s, h1, h4⟩
    · rw [h1, h2]; simp [h3]
    · rw [h1]
      simp only
      unfold FixtureDb.queryName at h4
      cases hd : dictGet db.byName (ops.lower s) with
      | none => rw [h2]; simp [h3]
      | some y => rw [hd] at h4; cases h4

/-- **C50, completion.**  Values that refer to an entry by name or id are completed by it; if the entry inherits, its ancestors follow. -/
theorem C50_complete (ops : StrOps) (db : FixtureDb) (hf : Filed ops db) (values x : Rec) (hv : values "inherit_from" = none) (hx : Refers ops db values x) :
    (x "inherit_from" = none → ∀ fuel, 1 ≤ fuel → ∃ res, db.inheritance ops fuel values [] = .ok (res, []) ∧ ∀ f, res f = nearest f [values, x]) ∧
    (∀ k rs, x "inherit_from" = some k → Ancestors ops db k rs → ∀ fuel, rs.length + 2 ≤ fuel →
      ∃ res chain, db.inheritance ops fuel values [] = .ok (res, chain) ∧ res "inherit_from" = none ∧ res "name" = nearest "name" [values, x] ∧
        (∀ f, f ≠ "inherit_from" → f ≠ "name" → res f = nearest f (values :: x :: rs.map (·.2))) ∧ chain = (nearest "name" [values, x]).toList ++ rs.map (·.1)) := by
  have hkn := known_refers hx
  have hov : ∀ f, (values.over x) f = nearest f [values, x] := by
    intro f
    simp only [over_apply, nearest]
    cases values f <;> simp only
    cases x f <;> rfl
  have hmi : (values.over x) "inherit_from" = x "inherit_from" := by rw [over_apply, hv]
  constructor
  · intro hxi fuel hfuel
    obtain ⟨fuel, rfl⟩ : ∃ n, fuel = n + 1 := ⟨fuel - 1, by omega⟩
    rw [FixtureDb.inheritance, hv]
    simp only
    rw [hkn]
    simp only
    rw [hmi, hxi]
    exact ⟨_, rfl, hov⟩
  · intro k rs hxi h fuel hfuel
    obtain ⟨fuel, rfl⟩ : ∃ n, fuel = n + 2 := ⟨fuel - 2, by omega⟩
    have hname : ∃ n, nearest "name" [values, x] = some n := by
      rcases hx with ⟨s, h1, -⟩ | ⟨h1, i, h2, h3⟩
      · exact ⟨.str s, by simp [nearest, h1]⟩
      · rcases h1 with h1 | ⟨s, h1, -⟩
        · obtain ⟨n, hn⟩ := Option.isSome_iff_exists.mp (hf.2 _ _ h3).2
          exact ⟨n, by simp [nearest, h1, hn]⟩
        · exact ⟨.str s, by simp [nearest, h1]⟩
    obtain ⟨n, hn⟩ := hname
    rw [FixtureDb.inheritance, hv]
    simp only
    rw [hkn]
    simp only
    rw [hmi, hxi, hov "name", hn]
    simp only
    rw [FixtureDb.inheritance, hmi, hxi]
    simp only
    have hst : chainStart ((values.over x).del "inherit_from") k ([] ++ [n]) = .ok [n] := by
      unfold chainStart
      have : ((values.over x).del "inherit_from") "name" = some n := by rw [Rec.del, if_neg (by decide), hov, hn]
      rw [this]
      rfl
    rw [hst]
    simp only
    obtain ⟨r1, hr1⟩ : ∃ r1, db.getItem ops k = .ok r1 := by cases h with | last s r g1 g2 => exact ⟨_, g1⟩ | step a b r l g1 g2 g3 => exact ⟨_, g1⟩
    rw [hr1]
    simp only
    obtain ⟨res, e1, e2, e3, e4⟩ := inherit_base hf h r1 hr1 fuel ([n] ++ [k]) (by omega) (by simp)
    rw [e1]
    simp only
    refine ⟨_, _, rfl, ?_, ?_, ?_, ?_⟩
    · simp [over_apply, Rec.del, e2]
    · rw [over_apply, Rec.del, if_neg (by decide), hov, hn]
    · intro f hf1 hf2
      rw [over_apply, Rec.del, if_neg hf1, over_apply]
      simp only [nearest]
      cases values f with
      | some v => rfl
      | none =>
        cases x f with
        | some v => rfl
        | none => exact e4 f hf1 hf2
    · have : rs.map (·.1) = k :: rs.tail.map (·.1) := by cases h <;> rfl
      rw [this]; simp

/-- **C50, query.**  Values that consist of a name only: the entry of this name, its missing fields taken from the nearest ancestor that has them.  An entry without parent is
returned as it is. -/
theorem C50_query (ops : StrOps) (hstr : ∀ s, ops.ofVal (.str s) = s) (db : FixtureDb) (hf : Filed ops db) (s : String) (r : Rec) (hq : db.queryName ops s = .ok r) :
    (r "inherit_from" = none → (∃ n, r "name" = some (.str n)) → ∀ fuel, 1 ≤ fuel → ∃ res, db.completeName ops fuel s = .ok (res, []) ∧ ∀ f, res f = r f) ∧
    (∀ k rs, r "inherit_from" = some k → r "name" ≠ some k → Ancestors ops db k rs → ∀ fuel, rs.length + 1 ≤ fuel →
      ∃ res chain, db.completeName ops fuel s = .ok (res, chain) ∧ res "inherit_from" = none ∧ res "name" = r "name" ∧
        ∀ f, f ≠ "inherit_from" → res f = nearest f (r :: rs.map (·.2))) := by
  have hc : ∀ fuel, db.completeName ops fuel s = db.inheritance ops fuel r [] := by
    intro fuel
    unfold FixtureDb.completeName FixtureDb.queryItem
    simp only
    rw [hq]
  have hd : dictGet db.byName (ops.lower s) = some r := by
    unfold FixtureDb.queryName at hq
    cases hd : dictGet db.byName (ops.lower s) with
    | none => rw [hd] at hq; cases hq
    | some y => rw [hd] at hq; cases hq; rfl
  obtain ⟨n0, hn0, hl⟩ := hf.1 _ _ hd
  constructor
  · rintro hi ⟨n, hn⟩ fuel hfuel
    rw [hc]
    obtain ⟨fuel, rfl⟩ : ∃ n, fuel = n + 1 := ⟨fuel - 1, by omega⟩
    rw [FixtureDb.inheritance, hi]
    simp only
    have hkn : db.known ops r = .ok (some r) := by
      unfold FixtureDb.known
      rw [hn]
      simp only
      rw [hn] at hn0
      cases hn0
      rw [hstr] at hl
      rw [hl, hd]
    rw [hkn]
    simp only
    have hrr : (r.over r) "inherit_from" = none := by rw [over_apply, hi]
    rw [hrr]
    refine ⟨_, rfl, fun f => ?_⟩
    rw [over_apply]
    cases r f <;> rfl
  · intro k rs hk hne h fuel hfuel
    rw [hc]
    obtain ⟨res, chain, e1, e2, e3, e4, e5⟩ := C50_inherit ops db hf r k rs hk hne h fuel hfuel
    refine ⟨res, chain, e1, e2, by rw [e3, hn0]; rfl, fun f hf1 => ?_⟩
    by_cases hf2 : f = "name"
    · subst hf2
      rw [e3, hn0]
      simp [nearest, hn0]
    · exact e4 f hf1 hf2

/-- **C50, query by id.**  The same for values that consist of an id only. -/
theorem C50_query_id (ops : StrOps) (hstr : ∀ s, ops.ofVal (.str s) = s) (db : FixtureDb) (hf : Filed ops db) (i : ℤ) (r : Rec) (hq : db.queryId i = .ok r) :
    (r "inherit_from" = none → (∃ n, r "name" = some (.str n) ∧ db.queryName ops n = .ok r) → ∀ fuel, 1 ≤ fuel →
      ∃ res, db.completeId ops fuel i = .ok (res, []) ∧ ∀ f, res f = r f) ∧
    (∀ k rs, r "inherit_from" = some k → r "name" ≠ some k → Ancestors ops db k rs → ∀ fuel, rs.length + 1 ≤ fuel →
      ∃ res chain, db.completeId ops fuel i = .ok (res, chain) ∧ res "inherit_from" = none ∧ res "name" = r "name" ∧
        ∀ f, f ≠ "inherit_from" → res f = nearest f (r :: rs.map (·.2))) := by
  have hc : ∀ fuel, db.completeId ops fuel i = db.inheritance ops fuel r [] := by
    intro fuel
    unfold FixtureDb.completeId FixtureDb.queryItem
    simp only
    rw [hq]
  have hd : dictGet db.byId (.int i) = some r := by
    unfold FixtureDb.queryId at hq
    cases hd : dictGet db.byId (.int i) with
    | none => rw [hd] at hq; cases hq
    | some y => rw [hd] at hq; cases hq; rfl
  obtain ⟨n0, hn0⟩ := Option.isSome_iff_exists.mp (hf.2 _ _ hd).2
  constructor
  · rintro hi ⟨n, hn, hqn⟩ fuel hfuel
    obtain ⟨res, h1, h2⟩ := (C50_query ops hstr db hf n r hqn).1 hi ⟨n, hn⟩ fuel hfuel
    refine ⟨res, ?_, h2⟩
    rw [hc, ← h1]
    unfold FixtureDb.completeName FixtureDb.queryItem
    simp only
    rw [hqn]
  · intro k rs hk hne h fuel hfuel
    rw [hc]
    obtain ⟨res, chain, e1, e2, e3, e4, e5⟩ := C50_inherit ops db hf r k rs hk hne h fuel hfuel
    refine ⟨res, chain, e1, e2, by rw [e3, hn0]; rfl, fun f hf1 => ?_⟩
    by_cases hf2 : f = "name"
    · subst hf2
      rw [e3, hn0]
      simp [nearest, hn0]
    · exact e4 f hf1 hf2

/-! ### The concrete data base, completed -/

/-- A field of a resolved dictionary. -/
def rfield (x : Except PyErr (Rec × List Val)) (k : String) : Option Val := match x with | .ok r => r.1 k | .error _ => none

example : rfield ((dbOf hist1).completeName plainOps 10 "top") "a" = some (.int 10) ∧ rfield ((dbOf hist1).completeName plainOps 10 "top") "b" = some (.int 21) ∧
    rfield ((dbOf hist1).completeName plainOps 10 "top") "c" = some (.int 32) ∧ rfield ((dbOf hist1).completeName plainOps 10 "top") "name" = some (.str "top") := by
  decide +kernel

/-- The hypotheses of the theorems are met: "top" has the ancestors "mid" and "base". -/
example : ∃ rs, Ancestors plainOps (dbOf hist1) (.str "mid") rs ∧ rs.length = 2 ∧ Filed plainOps (dbOf hist1) :=
  ⟨_, .step _ (.str "Base") _ _ rfl rfl (.last "Base" _ rfl rfl), rfl, filed_build plainOps "T" hist1 .empty _ (filed_empty _) rfl⟩

/-! ## C51: circles, unknown parents -/

/-- Following the parents of a key ends with an error: an unknown key, or a last ancestor that was not named by a string. -/
inductive Broken (ops : StrOps) (db : FixtureDb) : Val → PyErr → ℕ → Prop
  | unknown (k : Val) (h1 : ∀ r, db.getItem ops k ≠ .ok r) : Broken ops db k .valueError 0
  | noString (k : Val) (r : Rec) (h0 : ∀ s, k ≠ .str s) (h1 : db.getItem ops k = .ok r) (h2 : r "inherit_from" = none) : Broken ops db k .attributeError 1
  | step (k k' : Val) (r : Rec) (e : PyErr) (n : ℕ) (h1 : db.getItem ops k = .ok r) (h2 : r "inherit_from" = some k') (h3 : Broken ops db k' e n) : Broken ops db k e (n + 1)

/-- Following the parents of a key never ends. -/
def Endless (ops : StrOps) (db : FixtureDb) (k : Val) : Prop :=
  ∃ ks : ℕ → Val, ks 0 = k ∧ ∀ i, ∃ r, db.getItem ops (ks i) = .ok r ∧ r "inherit_from" = some (ks (i + 1))

theorem getItem_error {ops : StrOps} {db : FixtureDb} {k : Val} {e : PyErr} (h : db.getItem ops k = .error e) : e = .valueError := by
  unfold FixtureDb.getItem at h
  repeat' split at h
  all_goals first | cases h; rfl | cases h

theorem ancestors_head {ops : StrOps} {db : FixtureDb} {k : Val} {rs : List (Val × Rec)} (h : Ancestors ops db k rs) :
    ∃ r t, rs = (k, r) :: t ∧ db.getItem ops k = .ok r ∧ ((r "inherit_from" = none ∧ t = []) ∨ ∃ k', r "inherit_from" = some k' ∧ Ancestors ops db k' t) := by
  cases h with
  | last s r h1 h2 => exact ⟨r, [], rfl, h1, .inl ⟨h2, rfl⟩⟩
  | step k k' r rs h1 h2 h3 => exact ⟨r, rs, rfl, h1, .inr ⟨k', h2, h3⟩⟩

/-- There is only one line of ancestors. -/
theorem ancestors_unique {ops : StrOps} {db : FixtureDb} {k : Val} {rs : List (Val × Rec)} (h : Ancestors ops db k rs) : ∀ rs', Ancestors ops db k rs' → rs = rs' := by
  induction h with
  | last s r h1 h2 =>
    intro rs' h'
    obtain ⟨r', t, rfl, g1, g2⟩ := ancestors_head h'
    rw [h1] at g1; cases g1
    rcases g2 with ⟨-, rfl⟩ | ⟨k', g2, -⟩
    · rfl
    · rw [h2] at g2; cases g2
  | step k k' r rs h1 h2 h3 ih =>
    intro rs' h'
    obtain ⟨r', t, rfl, g1, g2⟩ := ancestors_head h'
    rw [h1] at g1; cases g1
    rcases g2 with ⟨g2, -⟩ | ⟨k'', g2, g3⟩
    · rw [h2] at g2; cases g2
    · rw [h2] at g2; cases g2
      rw [ih t g3]

theorem ancestors_suffix {ops : StrOps} {db : FixtureDb} {k : Val} {rs : List (Val × Rec)} (h : Ancestors ops db k rs) :
    ∀ r ∈ rs.map (·.2), ∃ k' t, Ancestors ops db k' ((k', r) :: t) ∧ t.length < rs.length := by
  induction h with
  | last s r h1 h2 =>
    intro x hx
    simp at hx
    subst hx
    exact ⟨_, [], .last s x h1 h2, by simp⟩
  | step k k' r rs h1 h2 h3 ih =>
    intro x hx
    rw [List.map_cons, List.mem_cons] at hx
    rcases hx with rfl | hx
    · exact ⟨k, rs, .step k k' _ rs h1 h2 h3, by simp⟩
    · obtain ⟨a, t, b, c⟩ := ih x hx
      exact ⟨a, t, b, by simp; omega⟩

/-- No entry is its own ancestor. -/
theorem ancestors_nodup {ops : StrOps} {db : FixtureDb} {k : Val} {rs : List (Val × Rec)} (h : Ancestors ops db k rs) : (rs.map (·.2)).Nodup := by
  induction h with
  | last s r h1 h2 => simp
  | step k k' r rs h1 h2 h3 ih =>
    rw [List.map_cons, List.nodup_cons]
    refine ⟨fun hm => ?_, ih⟩
    obtain ⟨a, t, b, c⟩ := ancestors_suffix h3 r hm
    obtain ⟨r', t', e, g1, g2⟩ := ancestors_head b
    cases e
    rcases g2 with ⟨g2, -⟩ | ⟨k'', g2, g3⟩
    · rw [h2] at g2; cases g2
    · rw [h2] at g2; cases g2
      rw [ancestors_unique g3 rs h3] at c
      exact absurd c (lt_irrefl _)

/-- All entries of the data base. -/
def entries (db : FixtureDb) : List Rec := db.byName.map (·.2) ++ db.byId.map (·.2)

theorem dictGet_mem {κ α : Type} [DecidableEq κ] {k : κ} {v : α} : ∀ {d : List (κ × α)}, dictGet d k = some v → v ∈ d.map (·.2)
  | [], h => by cases h
  | (a, b) :: t, h => by
    rw [dictGet] at h
    split_ifs at h with hk
    · cases h; simp
    · exact List.mem_cons_of_mem _ (dictGet_mem h)

theorem getItem_mem {ops : StrOps} {db : FixtureDb} {k : Val} {r : Rec} (h : db.getItem ops k = .ok r) : r ∈ entries db := by
  unfold FixtureDb.getItem at h
  unfold entries
  rw [List.mem_append]
  repeat' split at h
  all_goals first
    | cases h; exact .inl (dictGet_mem (by assumption))
    | cases h; exact .inr (dictGet_mem (by assumption))
    | cases h

/-- **C51, bound.**  A line of ancestors is never longer than the data base has entries (each is filed twice). -/
theorem C51_bound (ops : StrOps) (db : FixtureDb) (k : Val) (rs : List (Val × Rec)) (h : Ancestors ops db k rs) : rs.length ≤ db.byName.length + db.byId.length := by
  have hsub : rs.map (·.2) ⊆ entries db := by
    intro r hr
    obtain ⟨k', t, a, -⟩ := ancestors_suffix h r hr
    obtain ⟨r', t', e, g1, -⟩ := ancestors_head a
    cases e
    exact getItem_mem g1
  have := (List.Nodup.subperm (ancestors_nodup h) hsub).length_le
  simpa [entries] using this

/-- **C51, three cases.**  Following the parents of any key either ends at an entry without parent, or at an error, or never. -/
theorem C51_cases (ops : StrOps) (db : FixtureDb) (k : Val) : (∃ rs, Ancestors ops db k rs) ∨ (∃ e n, Broken ops db k e n) ∨ Endless ops db k := by
  by_contra hcon
  have hstep : ∀ k : {k : Val // ¬(∃ rs, Ancestors ops db k rs) ∧ ¬∃ e n, Broken ops db k e n},
      ∃ k' : {k : Val // ¬(∃ rs, Ancestors ops db k rs) ∧ ¬∃ e n, Broken ops db k e n}, ∃ r, db.getItem ops k.1 = .ok r ∧ r "inherit_from" = some k'.1 := by
    rintro ⟨k, h1, h2⟩
    cases hg : db.getItem ops k with
    | error e => exact absurd ⟨_, _, .unknown k (by simp [hg])⟩ h2
    | ok r =>
      cases hi : r "inherit_from" with
      | none =>
        exfalso
        cases k with
        | str s => exact h1 ⟨_, .last s r hg hi⟩
        | int n => exact h2 ⟨_, _, .noString _ r (by simp) hg hi⟩
        | other n => exact h2 ⟨_, _, .noString _ r (by simp) hg hi⟩
      | some k' =>
        refine ⟨⟨k', ?_, ?_⟩, r, rfl, hi⟩
        · rintro ⟨rs, h⟩; exact h1 ⟨_, .step k k' r rs hg hi h⟩
        · rintro ⟨e, n, h⟩; exact h2 ⟨e, _, .step k k' r e n hg hi h⟩
  choose nx hnx using hstep
  refine hcon (.inr (.inr ?_))
  have h0 : ¬(∃ rs, Ancestors ops db k rs) ∧ ¬∃ e n, Broken ops db k e n := ⟨fun h => hcon (.inl h), fun h => hcon (.inr (.inl h))⟩
  exact ⟨fun i => (nx^[i] ⟨k, h0⟩).1, rfl, fun i => by simp only [Function.iterate_succ_apply']; exact hnx _⟩

/-- **C51, endless means circular.**  If following the parents never ends, some entry is met twice. -/
theorem C51_endless_circle (ops : StrOps) (db : FixtureDb) (ks : ℕ → Val) (rs : ℕ → Rec) (h : ∀ i, db.getItem ops (ks i) = .ok (rs i) ∧ rs i "inherit_from" = some (ks (i + 1))) :
    ∃ i j, i < j ∧ rs i = rs j ∧ ks (i + 1) = ks (j + 1) := by
  have hfin : (Set.range rs).Finite := by
    refine (List.finite_toSet (entries db)).subset ?_
    rintro _ ⟨i, rfl⟩
    exact getItem_mem (h i).1
  have hnin : ¬Function.Injective rs := fun hinj => Set.infinite_range_of_injective hinj hfin
  simp only [Function.Injective, not_forall] at hnin
  obtain ⟨i, j, hij, hne⟩ := hnin
  have hk : ks (i + 1) = ks (j + 1) := by
    have := (h i).2
    rw [hij, (h j).2] at this
    exact (Option.some.inj this).symm
  rcases Nat.lt_or_gt_of_ne hne with hlt | hlt
  · exact ⟨i, j, hlt, hij, hk⟩
  · exact ⟨j, i, hlt, hij.symm, hk.symm⟩

/-- What `inheritance` does with values that name a parent, unless they are the start of a chain and name themselves. -/
theorem inherit_unfold {ops : StrOps} {db : FixtureDb} {values : Rec} {k : Val} (hk : values "inherit_from" = some k) (fuel : ℕ) (chain : List Val)
    (hok : chain ≠ [] ∨ values "name" ≠ some k) : ∃ chain', (∀ e, db.getItem ops k = .error e → db.inheritance ops (fuel + 1) values chain = .error e) ∧
      (∀ r e, db.getItem ops k = .ok r → db.inheritance ops fuel (r.set "name" k) (chain' ++ [k]) = .error e → db.inheritance ops (fuel + 1) values chain = .error e) := by
  have hst : ∃ chain', chainStart (values.del "inherit_from") k chain = .ok chain' := by
    unfold chainStart
    have : (values.del "inherit_from") "name" = values "name" := by simp [Rec.del]
    rw [this]
    cases hn : values "name" with
    | none => exact ⟨_, rfl⟩
    | some n =>
      simp only
      cases chain with
      | cons a b => exact ⟨_, if_neg (by simp)⟩
      | nil =>
        rcases hok with h | h
        · exact absurd rfl h
        · refine ⟨[n], ?_⟩
          rw [if_pos (by simp), if_neg (by simp), if_neg (by rintro rfl; exact h hn)]
          rfl
  obtain ⟨c, hc⟩ := hst
  refine ⟨c, ?_, ?_⟩
  · intro e he
    rw [FixtureDb.inheritance, hk]
    simp only
    rw [hc]
    simp only
    rw [he]
  · intro r e hr he
    rw [FixtureDb.inheritance, hk]
    simp only
    rw [hc]
    simp only
    rw [hr]
    simp only
    rw [he]

theorem endless_base {ops : StrOps} {db : FixtureDb} {ks : ℕ → Val} (h : ∀ i, ∃ r, db.getItem ops (ks i) = .ok r ∧ r "inherit_from" = some (ks (i + 1))) :
    ∀ (fuel i : ℕ) (values : Rec) (chain : List Val), values "inherit_from" = some (ks i) → (chain ≠ [] ∨ values "name" ≠ some (ks i)) →
      db.inheritance ops fuel values chain = .error .recursionError
  | 0, _, _, _, _, _ => rfl
  | fuel + 1, i, values, chain, hk, hok => by
    obtain ⟨c, -, h2⟩ := inherit_unfold (db := db) (ops := ops) hk fuel chain hok
    obtain ⟨r, g1, g2⟩ := h i
    exact h2 r _ g1 (endless_base h fuel (i + 1) _ _ (by simp [Rec.set, g2]) (.inl (by simp)))

/-- **C51 violated: circles.**  A circle is not answered with a ValueError: whatever depth of calls the interpreter allows, it is used up and a RecursionError is raised.
Only values that name themselves as parent, written in the same letter case, are refused. -/
theorem C51_circle_violated (ops : StrOps) (db : FixtureDb) (values : Rec) (k : Val) (hk : values "inherit_from" = some k) (h : Endless ops db k) (fuel : ℕ) :
    (values "name" ≠ some k → db.inheritance ops fuel values [] = .error .recursionError) ∧
    (values "name" = some k → 1 ≤ fuel → db.inheritance ops fuel values [] = .error .valueError) := by
  obtain ⟨ks, rfl, h⟩ := h
  refine ⟨fun hne => endless_base h fuel 0 values [] hk (.inr hne), fun hn hfuel => ?_⟩
  obtain ⟨fuel, rfl⟩ : ∃ n, fuel = n + 1 := ⟨fuel - 1, by omega⟩
  rw [FixtureDb.inheritance, hk]
  simp only
  have hst : chainStart (values.del "inherit_from") (ks 0) [] = .error .valueError := by
    unfold chainStart
    have : (values.del "inherit_from") "name" = values "name" := by simp [Rec.del]
    rw [this, hn]
    simp
  rw [hst]

theorem broken_base {ops : StrOps} {db : FixtureDb} {k : Val} {e : PyErr} {n : ℕ} (h : Broken ops db k e n) :
    ∀ (fuel : ℕ) (values : Rec) (chain : List Val), values "inherit_from" = some k → (chain ≠ [] ∨ values "name" ≠ some k) → n < fuel →
      db.inheritance ops fuel values chain = .error e := by
  induction h with
  | unknown k h1 =>
    intro fuel values chain hk hok hfuel
    obtain ⟨fuel, rfl⟩ : ∃ n, fuel = n + 1 := ⟨fuel - 1, by omega⟩
    obtain ⟨c, g1, -⟩ := inherit_unfold (db := db) (ops := ops) hk fuel chain hok
    cases hg : db.getItem ops k with
    | ok r => exact absurd hg (h1 r)
    | error e => rw [g1 e hg, getItem_error hg]
  | noString k r h0 h1 h2 =>
    intro fuel values chain hk hok hfuel
    obtain ⟨fuel, rfl⟩ : ∃ n, fuel = n + 2 := ⟨fuel - 2, by omega⟩
    obtain ⟨c, -, g2⟩ := inherit_unfold (db := db) (ops := ops) hk (fuel + 1) chain hok
    refine g2 r _ h1 ?_
    have : (r.set "name" k) "inherit_from" = none := by simp [Rec.set, h2]
    rw [FixtureDb.inheritance, this]
    simp only
    have hkn : db.known ops (r.set "name" k) = .error .attributeError := by
      unfold FixtureDb.known
      simp only [Rec.set, if_true]
    rw [hkn]
  | step k k' r e n h1 h2 h3 ih =>
    intro fuel values chain hk hok hfuel
    obtain ⟨fuel, rfl⟩ : ∃ n, fuel = n + 1 := ⟨fuel - 1, by omega⟩
    obtain ⟨c, -, g2⟩ := inherit_unfold (db := db) (ops := ops) hk fuel chain hok
    exact g2 r _ h1 (ih fuel _ _ (by simp [Rec.set, h2]) (.inl (by simp)) (by omega))

/-- **C51, unknown ancestors.**  If the line of parents ends at a key the data base does not know, a ValueError is raised and nothing is returned. -/
theorem C51_unknown_partial (ops : StrOps) (db : FixtureDb) (values : Rec) (k : Val) (hk : values "inherit_from" = some k) (n : ℕ) (h : Broken ops db k .valueError n)
    (fuel : ℕ) (hfuel : n < fuel) : db.inheritance ops fuel values [] = .error .valueError := by
  by_cases hn : values "name" = some k
  · obtain ⟨fuel, rfl⟩ : ∃ n, fuel = n + 1 := ⟨fuel - 1, by omega⟩
    rw [FixtureDb.inheritance, hk]
    simp only
    have hst : chainStart (values.del "inherit_from") k [] = .error .valueError := by
      unfold chainStart
      have : (values.del "inherit_from") "name" = values "name" := by simp [Rec.del]
      rw [this, hn]
      simp
    rw [hst]
  · exact broken_base h fuel values [] hk (.inr hn) hfuel

/-- **C50 violated: parent given as a number.**  Items can be accessed by a number, but if the last ancestor is named by its number, resolution raises an AttributeError. -/
theorem C50_int_violated (ops : StrOps) (db : FixtureDb) (values : Rec) (i : ℤ) (r : Rec) (hk : values "inherit_from" = some (.int i)) (hne : values "name" ≠ some (.int i))
    (hi : db.getItem ops (.int i) = .ok r) (hr : r "inherit_from" = none) (fuel : ℕ) (hfuel : 2 ≤ fuel) :
    db.inheritance ops fuel values [] = .error .attributeError :=
  broken_base (.noString (.int i) r (by simp) hi hr) fuel values [] hk (.inr hne) (by omega)

/-! ### Concrete circles and broken lines -/

/-- The error of a resolution. -/
def rerror (x : Except PyErr (Rec × List Val)) : Option PyErr := match x with | .ok _ => none | .error e => some e

def hist2 : List (String × Rec) := [entry "x" 1 [("inherit_from", .str "y")], entry "y" 2 [("inherit_from", .str "x")], entry "base" 3 [("inherit_from", .str "Base")],
  entry "lost" 4 [("inherit_from", .str "nowhere")], entry "num" 5 [("inherit_from", .int 6)], entry "root" 6 []]

/-- Following the parents of "x" never ends. -/
example : Endless plainOps (dbOf hist2) (.str "x") := by
  refine ⟨fun i => if i % 2 = 0 then .str "x" else .str "y", rfl, fun i => ?_⟩
  rcases Nat.mod_two_eq_zero_or_one i with h | h
  · have h' : (i + 1) % 2 = 1 := by omega
    simp only [h, h']; exact ⟨_, rfl, rfl⟩
  · have h' : (i + 1) % 2 = 0 := by omega
    simp only [h, h']; exact ⟨_, rfl, rfl⟩

example : Broken plainOps (dbOf hist2) (.str "lost") .valueError 1 := .step _ (.str "nowhere") _ _ _ rfl rfl (.unknown _ (by intro r h; cases h))

example : rerror ((dbOf hist2).completeName plainOps 20 "x") = some .recursionError ∧ rerror ((dbOf hist2).completeName plainOps 20 "base") = some .recursionError ∧
    rerror ((dbOf hist2).completeName plainOps 20 "lost") = some .valueError ∧ rerror ((dbOf hist2).completeName plainOps 20 "num") = some .attributeError ∧
    rerror ((dbOf hist2).completeName plainOps 20 "root") = none ∧ rerror ((dbOf hist2).completeName plainOps 20 "unknown") = some .valueError := by
  decide +kernel

end Verif.Props
