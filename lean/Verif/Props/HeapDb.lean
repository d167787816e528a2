import Verif.Model.HeapDb
import Mathlib.Tactic.Common
import Mathlib.Algebra.Order.Group.Nat

/-!
# C110: instances leave the data base and the dictionaries of the caller alone
-/

namespace Verif.Props
open Verif.Model Verif.Py

/-- The data base as values: what its dictionaries hold. -/
def recContents (h : DictHeap) (db : HeapDb) : FixtureDb :=
  ⟨db.byName.map (fun p => (p.1, h.cell p.2)), db.byId.map (fun p => (p.1, h.cell p.2))⟩

/-- All dictionaries of the data base exist. -/
def Stored (h : DictHeap) (db : HeapDb) : Prop := (∀ p ∈ db.byName, p.2 < h.next) ∧ ∀ p ∈ db.byId, p.2 < h.next

/-- No dictionary that existed before is changed. -/
def Untouched (h h' : DictHeap) : Prop := h.next ≤ h'.next ∧ ∀ x < h.next, h'.cell x = h.cell x

theorem Untouched.refl (h : DictHeap) : Untouched h h := ⟨le_refl _, fun _ _ => rfl⟩
theorem Untouched.trans {a b c : DictHeap} (h1 : Untouched a b) (h2 : Untouched b c) : Untouched a c :=
  ⟨h1.1.trans h2.1, fun x hx => (h2.2 x (lt_of_lt_of_le hx h1.1)).trans (h1.2 x hx)⟩

theorem untouched_alloc (h : DictHeap) (r : Rec) : Untouched h (h.alloc r).1 :=
  ⟨Nat.le_succ _, fun x hx => by simp [DictHeap.alloc, Nat.ne_of_lt hx]⟩
theorem untouched_write {h h' : DictHeap} (hu : Untouched h h') {a : ℕ} (ha : h.next ≤ a) (r : Rec) : Untouched h (h'.write a r) :=
  ⟨hu.1, fun x hx => by
    have : x ≠ a := by omega
    simp only [DictHeap.write, if_neg this]; exact hu.2 x hx⟩

theorem Stored.mono {h h' : DictHeap} {db : HeapDb} (hs : Stored h db) (hu : h.next ≤ h'.next) : Stored h' db :=
  ⟨fun p hp => lt_of_lt_of_le (hs.1 p hp) hu, fun p hp => lt_of_lt_of_le (hs.2 p hp) hu⟩

theorem contents_eq {h h' : DictHeap} {db : HeapDb} (hs : Stored h db) (hu : Untouched h h') : recContents h' db = recContents h db := by
  unfold recContents
  congr 1
  · exact List.map_congr_left fun p hp => by rw [hu.2 _ (hs.1 p hp)]
  · exact List.map_congr_left fun p hp => by rw [hu.2 _ (hs.2 p hp)]

theorem dictGet_map {κ : Type} [DecidableEq κ] (c : ℕ → Rec) (k : κ) : ∀ d : List (κ × ℕ), dictGet (d.map (fun p => (p.1, c p.2))) k = (dictGet d k).map c
  | [] => rfl
  | (k', v) :: t => by
    simp only [List.map_cons, dictGet]
    split_ifs
    · rfl
    · exact dictGet_map c k t

theorem recGet_mem {κ : Type} [DecidableEq κ] {k : κ} {r : ℕ} : ∀ {d : List (κ × ℕ)}, dictGet d k = some r → ∃ p ∈ d, p.2 = r
  | [], h => by cases h
  | (k', v) :: t, h => by
    simp only [dictGet] at h
    split_ifs at h
    · injection h with h
      exact ⟨(k', v), by simp, h⟩
    · obtain ⟨p, hp, hr⟩ := recGet_mem h
      exact ⟨p, by simp [hp], hr⟩

theorem getItem_contents (ops : StrOps) (h : DictHeap) (db : HeapDb) (k : Val) :
    (recContents h db).getItem ops k = (db.getItem ops k).map h.cell := by
  unfold FixtureDb.getItem HeapDb.getItem recContents
  cases k with
  | str s =>
    simp only [dictGet_map]
    cases dictGet db.byName (ops.lower s) with
    | some r => rfl
    | none =>
      simp only [Option.map_none]
      cases ops.digit (ops.lower s) with
      | none => rfl
      | some n => simp only; cases dictGet db.byId (.int n) <;> rfl
  | int n => simp only [dictGet_map]; cases dictGet db.byId (.int n) <;> rfl
  | other n => simp only [dictGet_map]; cases dictGet db.byId (.other n) <;> rfl

theorem getItem_stored {ops : StrOps} {h : DictHeap} {db : HeapDb} (hs : Stored h db) {k : Val} {r : ℕ} (hg : db.getItem ops k = .ok r) : r < h.next := by
  have hn : ∀ {k}, dictGet db.byName k = some r → r < h.next := fun hk => by
    obtain ⟨p, hp, rfl⟩ := recGet_mem hk; exact hs.1 p hp
  have hi : ∀ {k}, dictGet db.byId k = some r → r < h.next := fun hk => by
    obtain ⟨p, hp, rfl⟩ := recGet_mem hk; exact hs.2 p hp
  unfold HeapDb.getItem at hg
  split at hg
  · split at hg
    · rename_i r' hr
      injection hg with hg; subst hg; exact hn hr
    · split at hg
      · cases hg
      · split at hg
        · rename_i r' hr
          injection hg with hg; subst hg; exact hi hr
        · cases hg
  · split at hg
    · rename_i r' hr
      injection hg with hg; subst hg; exact hi hr
    · cases hg

theorem known_contents (ops : StrOps) (h : DictHeap) (db : HeapDb) (values : Rec) :
    (recContents h db).known ops values = (db.known ops values).map (fun o => o.map h.cell) := by
  have hb : (values "id").bind (dictGet (recContents h db).byId) = ((values "id").bind (dictGet db.byId)).map h.cell := by
    cases values "id" with
    | none => rfl
    | some i => exact dictGet_map _ _ _
  unfold FixtureDb.known HeapDb.known
  cases values "name" with
  | none => simp only [hb]; rfl
  | some n =>
    cases n with
    | str s =>
      simp only [hb]
      have : dictGet (recContents h db).byName (ops.lower s) = (dictGet db.byName (ops.lower s)).map h.cell := dictGet_map _ _ _
      rw [this]
      cases dictGet db.byName (ops.lower s) <;> rfl
    | int n => rfl
    | other n => rfl

theorem known_isStored {ops : StrOps} {h : DictHeap} {db : HeapDb} (hs : Stored h db) {values : Rec} {r : ℕ} (hg : db.known ops values = .ok (some r)) : r < h.next := by
  have hn : ∀ {k}, dictGet db.byName k = some r → r < h.next := fun hk => by
    obtain ⟨p, hp, rfl⟩ := recGet_mem hk; exact hs.1 p hp
  have hi : (values "id").bind (dictGet db.byId) = some r → r < h.next := fun hk => by
    obtain ⟨i, -, hk⟩ := Option.bind_eq_some_iff.mp hk
    obtain ⟨p, hp, rfl⟩ := recGet_mem hk; exact hs.2 p hp
  unfold HeapDb.known at hg
  split at hg
  · split at hg
    · rename_i r' hr
      injection hg with hg; injection hg with hg; subst hg; exact hn hr
    · injection hg with hg; exact hi hg
  · cases hg
  · injection hg with hg; exact hi hg

/-- What a call with objects has in common with the call with values: the same exception, or a new dictionary with the same content and the same chain. -/
def Agrees (h h' : DictHeap) : Except PyErr (ℕ × List Val) → Except PyErr (Rec × List Val) → Prop
  | .error e, .error e' => e = e'
  | .ok (b, c), .ok (r, c') => h.next ≤ b ∧ b < h'.next ∧ h'.cell b = r ∧ c = c'
  | _, _ => False

theorem alloc_facts {h h1 : DictHeap} {r : Rec} {v : ℕ} (e : h.alloc r = (h1, v)) : v = h.next ∧ h1.next = h.next + 1 ∧ h1.cell v = r ∧ Untouched h h1 := by
  have e1 : h1 = (h.alloc r).1 := by rw [e]
  have e2 : v = (h.alloc r).2 := by rw [e]
  subst e1 e2
  exact ⟨rfl, rfl, by simp [DictHeap.alloc], untouched_alloc h r⟩

theorem write_same (h : DictHeap) (a : ℕ) (r : Rec) : (h.write a r).cell a = r := by simp [DictHeap.write]
theorem write_other (h : DictHeap) {a x : ℕ} (hx : x ≠ a) (r : Rec) : (h.write a r).cell x = h.cell x := by simp [DictHeap.write, hx]
theorem write_next (h : DictHeap) (a : ℕ) (r : Rec) : (h.write a r).next = h.next := rfl

/-- The objects follow the values, and nothing that existed is written. -/
theorem inherit_frame (ops : StrOps) (db : HeapDb) : ∀ (fuel : ℕ) (h : DictHeap) (a : ℕ) (chain : List Val), Stored h db → a < h.next →
    Untouched h (db.inheritance ops fuel h a chain).1 ∧
      Agrees h (db.inheritance ops fuel h a chain).1 (db.inheritance ops fuel h a chain).2 ((recContents h db).inheritance ops fuel (h.cell a) chain)
  | 0, h, a, chain, _, _ => ⟨Untouched.refl h, rfl⟩
  | fuel + 1, h, a, chain, hs, ha => by
    rw [HeapDb.inheritance, FixtureDb.inheritance]
    generalize hA : h.alloc (h.cell a) = A
    obtain ⟨h1, v⟩ := A
    obtain ⟨hv, hn1, hc1, hu1⟩ := alloc_facts hA
    dsimp only
    rw [hc1]
    cases hb : h.cell a "inherit_from" with
    | some base =>
      dsimp only
      rw [write_same]
      have hu2 : Untouched h (h1.write v ((h.cell a).del "inherit_from")) := untouched_write hu1 hv.ge _
      have hc2 : (h1.write v ((h.cell a).del "inherit_from")).cell v = (h.cell a).del "inherit_from" := write_same _ _ _
      have hn2 : (h1.write v ((h.cell a).del "inherit_from")).next = h.next + 1 := hn1
      generalize h1.write v ((h.cell a).del "inherit_from") = h2 at hu2 hc2 hn2 ⊢
      cases chainStart ((h.cell a).del "inherit_from") base chain with
      | error e => exact ⟨hu2, rfl⟩
      | ok chain' =>
        dsimp only
        rw [getItem_contents]
        cases hg : db.getItem ops base with
        | error e => exact ⟨hu2, rfl⟩
        | ok r =>
          have hr := getItem_stored hs hg
          simp only [Except.map]
          generalize hB : h2.alloc (h2.cell r) = B
          obtain ⟨h3, fb⟩ := B
          obtain ⟨hfb, hn3, hc3, hu3⟩ := alloc_facts hB
          dsimp only
          rw [hc3, hu2.2 r hr]
          have hu4 : Untouched h2 (h3.write fb ((h.cell r).set "name" base)) := untouched_write hu3 hfb.ge _
          have hc4 : (h3.write fb ((h.cell r).set "name" base)).cell fb = (h.cell r).set "name" base := write_same _ _ _
          have hn4 : (h3.write fb ((h.cell r).set "name" base)).next = h.next + 2 := by rw [write_next]; omega
          generalize h3.write fb ((h.cell r).set "name" base) = h4 at hu4 hc4 hn4 ⊢
          have hs4 : Stored h4 db := hs.mono (by omega)
          obtain ⟨hu5, hag⟩ := inherit_frame ops db fuel h4 fb (chain' ++ [base]) hs4 (by omega)
          rw [hc4, contents_eq hs (hu2.trans hu4)] at hag
          generalize db.inheritance ops fuel h4 fb (chain' ++ [base]) = R at hu5 hag ⊢
          obtain ⟨h5, res⟩ := R
          generalize FixtureDb.inheritance ops (recContents h db) fuel ((h.cell r).set "name" base) (chain' ++ [base]) = R' at hag ⊢
          have hu : Untouched h h5 := (hu2.trans hu4).trans hu5
          cases res with
          | error e =>
            cases R' with
            | error e' => exact ⟨hu, hag⟩
            | ok x => exact absurd hag (by simp [Agrees])
          | ok bc =>
            obtain ⟨b, c⟩ := bc
            cases R' with
            | error e' => exact absurd hag (by simp [Agrees])
            | ok x =>
              obtain ⟨r', c'⟩ := x
              obtain ⟨hb1, hb2, hb3, hb4⟩ := hag
              have hcv : h5.cell v = (h.cell a).del "inherit_from" := by
                rw [hu5.2 v (by omega), hu4.2 v (by omega), hc2]
              dsimp only at hb1 hb2 hb3 hu ⊢
              refine ⟨untouched_write hu (by omega) _, ?_⟩
              refine ⟨by omega, hb2, ?_, hb4⟩
              rw [write_same, hcv, hb3]
    | none =>
      dsimp only
      rw [known_contents]
      cases hg : db.known ops (h.cell a) with
      | error e => exact ⟨hu1, rfl⟩
      | ok o =>
        cases o with
        | none => exact ⟨hu1, by omega, by dsimp only; omega, hc1, rfl⟩
        | some r =>
          have hr := known_isStored hs hg
          simp only [Except.map, Option.map_some]
          generalize hB : h1.alloc (h1.cell r) = B
          obtain ⟨h3, fb⟩ := B
          obtain ⟨hfb, hn3, hc3, hu3⟩ := alloc_facts hB
          dsimp only
          rw [hc3, hu1.2 r hr, hu3.2 v (by omega), hc1]
          have hu4 : Untouched h (h3.write fb ((h.cell a).over (h.cell r))) := untouched_write (hu1.trans hu3) (by omega) _
          have hc4 : (h3.write fb ((h.cell a).over (h.cell r))).cell fb = (h.cell a).over (h.cell r) := write_same _ _ _
          have hn4 : (h3.write fb ((h.cell a).over (h.cell r))).next = h.next + 2 := by rw [write_next]; omega
          generalize h3.write fb ((h.cell a).over (h.cell r)) = h4 at hu4 hc4 hn4 ⊢
          rw [hc4]
          cases hi : (h.cell a).over (h.cell r) "inherit_from" with
          | none => exact ⟨hu4, by omega, by dsimp only; omega, hc4, rfl⟩
          | some w =>
            dsimp only
            cases hm : (h.cell a).over (h.cell r) "name" with
            | none => exact ⟨hu4, rfl⟩
            | some n =>
              dsimp only
              have hs4 : Stored h4 db := hs.mono (by omega)
              obtain ⟨hu5, hag⟩ := inherit_frame ops db fuel h4 fb (chain ++ [n]) hs4 (by omega)
              rw [hc4, contents_eq hs hu4] at hag
              refine ⟨hu4.trans hu5, ?_⟩
              generalize db.inheritance ops fuel h4 fb (chain ++ [n]) = R at hu5 hag ⊢
              obtain ⟨h5, res⟩ := R
              generalize FixtureDb.inheritance ops (recContents h db) fuel ((h.cell a).over (h.cell r)) (chain ++ [n]) = R' at hag ⊢
              cases res with
              | error e => cases R' <;> exact hag
              | ok bc =>
                cases R' with
                | error e => exact hag
                | ok x => exact ⟨by have := hag.1; omega, hag.2⟩

/-- What an instance is made from, as value: the dictionary of the caller or the entry found in the data base. -/
def startOf (ops : StrOps) (h : DictHeap) (db : HeapDb) : DictRequest → Except PyErr Rec
  | .values a => .ok (h.cell a)
  | .name s => (recContents h db).queryItem ops none (some s)
  | .id n => (recContents h db).queryItem ops (some n) none

/-- The dictionary of the caller exists. -/
def Given (h : DictHeap) : DictRequest → Prop
  | .values a => a < h.next
  | _ => True

/-- What the new instance holds. -/
def instanceOf (ops : StrOps) (db : HeapDb) (fuel : ℕ) (h : DictHeap) (q : DictRequest) (fix : Rec → Rec) : Except PyErr Rec :=
  (db.create ops fuel h q fix).2.map (db.create ops fuel h q fix).1.cell

theorem query_start {ops : StrOps} {h : DictHeap} {db : HeapDb} {q : DictRequest} (hs : Stored h db) (hq : Given h q) :
    startOf ops h db q = (db.query ops q).map h.cell ∧ ∀ a, db.query ops q = .ok a → a < h.next := by
  cases q with
  | values a => exact ⟨rfl, fun b hb => by injection hb with hb; subst hb; exact hq⟩
  | name s =>
    unfold startOf HeapDb.query FixtureDb.queryItem FixtureDb.queryName recContents
    simp only [dictGet_map]
    cases hd : dictGet db.byName (ops.lower s) with
    | none => exact ⟨rfl, fun b hb => by cases hb⟩
    | some r =>
      refine ⟨rfl, fun b hb => ?_⟩
      injection hb with hb; subst hb
      obtain ⟨p, hp, rfl⟩ := recGet_mem hd; exact hs.1 p hp
  | id n =>
    unfold startOf HeapDb.query FixtureDb.queryItem FixtureDb.queryId recContents
    simp only [dictGet_map]
    cases hd : dictGet db.byId (.int n) with
    | none => exact ⟨rfl, fun b hb => by cases hb⟩
    | some r =>
      refine ⟨rfl, fun b hb => ?_⟩
      injection hb with hb; subst hb
      obtain ⟨p, hp, rfl⟩ := recGet_mem hd; exact hs.2 p hp

theorem create_facts (ops : StrOps) (db : HeapDb) (fuel : ℕ) (h : DictHeap) (q : DictRequest) (fix : Rec → Rec) (hs : Stored h db) (hq : Given h q) :
    Untouched h (db.create ops fuel h q fix).1 ∧ (∀ b, (db.create ops fuel h q fix).2 = .ok b → h.next ≤ b ∧ b < (db.create ops fuel h q fix).1.next) ∧
      instanceOf ops db fuel h q fix = (startOf ops h db q).bind (fun r => ((recContents h db).inheritance ops fuel r []).map (fun x => fix x.1)) := by
  obtain ⟨hst, hlt⟩ := query_start (ops := ops) hs hq
  rw [hst]
  unfold instanceOf HeapDb.create
  cases hqa : db.query ops q with
  | error e => exact ⟨Untouched.refl h, fun b hb => (by cases hb), rfl⟩
  | ok a =>
    obtain ⟨hu, hag⟩ := inherit_frame ops db fuel h a [] hs (hlt a hqa)
    simp only [Except.map, Except.bind]
    generalize db.inheritance ops fuel h a [] = R at hu hag ⊢
    obtain ⟨h5, res⟩ := R
    generalize FixtureDb.inheritance ops (recContents h db) fuel (h.cell a) [] = R' at hag ⊢
    cases res with
    | error e =>
      cases R' with
      | error e' => exact ⟨hu, fun b hb => (by cases hb), congrArg _ hag⟩
      | ok x => exact hag.elim
    | ok bc =>
      obtain ⟨b, c⟩ := bc
      cases R' with
      | error e => exact hag.elim
      | ok x =>
        obtain ⟨r', c'⟩ := x
        obtain ⟨h1, h2, h3, -⟩ := hag
        refine ⟨untouched_write hu h1 _, fun b' hb => ?_, ?_⟩
        · injection hb with hb; subst hb; exact ⟨h1, h2⟩
        · dsimp only at h3 ⊢
          rw [write_same, h3]

/-- An instance holds what inheritance, described with values, gives: the theorems about inheritance speak about objects too. -/
theorem C110_content (ops : StrOps) (db : HeapDb) (fuel : ℕ) (h : DictHeap) (q : DictRequest) (fix : Rec → Rec) (hs : Stored h db) (hq : Given h q) :
    instanceOf ops db fuel h q fix = (startOf ops h db q).bind (fun r => ((recContents h db).inheritance ops fuel r []).map (fun x => fix x.1)) :=
  (create_facts ops db fuel h q fix hs hq).2.2

/-- Every instance has a dictionary of its own: whatever is written into it, nothing that existed before changes. -/
theorem C110_fresh (ops : StrOps) (db : HeapDb) (fuel : ℕ) (h : DictHeap) (q : DictRequest) (fix : Rec → Rec) (hs : Stored h db) (hq : Given h q) {b : ℕ}
    (hb : (db.create ops fuel h q fix).2 = .ok b) (r : Rec) : ∀ x < h.next, ((db.create ops fuel h q fix).1.write b r).cell x = h.cell x := by
  obtain ⟨hu, hf, -⟩ := create_facts ops db fuel h q fix hs hq
  exact (untouched_write hu (hf b hb).1 r).2

theorem createAll_untouched (ops : StrOps) (db : HeapDb) (fuel : ℕ) : ∀ (l : List (DictRequest × (Rec → Rec))) (h : DictHeap), Stored h db → (∀ p ∈ l, Given h p.1) →
    Untouched h (db.createAll ops fuel h l)
  | [], h, _, _ => Untouched.refl h
  | (q, fix) :: t, h, hs, hq => by
    have hu := (create_facts ops db fuel h q fix hs (hq _ List.mem_cons_self)).1
    refine hu.trans (createAll_untouched ops db fuel t _ (hs.mono hu.1) fun p hp => ?_)
    have := hq p (List.mem_cons_of_mem _ hp)
    cases hp1 : p.1 with
    | values a => rw [hp1] at this; exact lt_of_lt_of_le this hu.1
    | name s => trivial
    | id n => trivial

/-- Whatever instances are made, in whatever order, whatever their validators write and whether they fail or not: no entry of the data base and no dictionary of the caller changes. -/
theorem C110_untouched (ops : StrOps) (db : HeapDb) (fuel : ℕ) (l : List (DictRequest × (Rec → Rec))) (h : DictHeap) (hs : Stored h db) (hq : ∀ p ∈ l, Given h p.1) :
    (∀ x < h.next, (db.createAll ops fuel h l).cell x = h.cell x) ∧ recContents (db.createAll ops fuel h l) db = recContents h db := by
  have := createAll_untouched ops db fuel l h hs hq
  exact ⟨this.2, contents_eq hs this⟩

/-- What an instance holds does not depend on the instances made before. -/
theorem C110_history (ops : StrOps) (db : HeapDb) (fuel : ℕ) (l : List (DictRequest × (Rec → Rec))) (h : DictHeap) (hs : Stored h db) (hq : ∀ p ∈ l, Given h p.1)
    (q : DictRequest) (fix : Rec → Rec) (hg : Given h q) :
    instanceOf ops db fuel (db.createAll ops fuel h l) q fix = instanceOf ops db fuel h q fix := by
  have hu := createAll_untouched ops db fuel l h hs hq
  have hg' : Given (db.createAll ops fuel h l) q := by
    cases q with
    | values a => exact lt_of_lt_of_le hg hu.1
    | name s => trivial
    | id n => trivial
  rw [C110_content ops db fuel h q fix hs hg, C110_content ops db fuel _ q fix (hs.mono hu.1) hg', contents_eq hs hu]
  congr 1
  cases q with
  | values a => simp only [startOf, hu.2 a hg]
  | name s => simp only [startOf, contents_eq hs hu]
  | id n => simp only [startOf, contents_eq hs hu]

/-- Not so for a query: it hands out the entry itself.  A value the caller writes into what was found by name is in every instance made by that name later. -/
theorem C110_query_violated (ops : StrOps) (db : HeapDb) (fuel : ℕ) (h : DictHeap) {s : String} {r : ℕ} (hs : Stored h db) (hname : h.cell r "name" = some (.str s))
    (hq : db.query ops (.name s) = .ok r) (hi : h.cell r "inherit_from" = none) {k : String} (hk : k ≠ "name") (hk' : k ≠ "inherit_from") (v : Val) :
    ∃ x, instanceOf ops db (fuel + 1) (h.write r ((h.cell r).set k v)) (.name s) id = .ok x ∧ x k = some v := by
  have hd : dictGet db.byName (ops.lower s) = some r := by
    simp only [HeapDb.query] at hq
    cases hd : dictGet db.byName (ops.lower s) with
    | none => rw [hd] at hq; cases hq
    | some x => rw [hd] at hq; injection hq with hq; rw [hq]
  set h' := h.write r ((h.cell r).set k v) with hh'
  have hs' : Stored h' db := hs
  have hc : h'.cell r = (h.cell r).set k v := write_same _ _ _
  refine ⟨((h.cell r).set k v).over ((h.cell r).set k v), ?_, by simp [Rec.over, Rec.set]⟩
  rw [C110_content ops db (fuel + 1) h' (.name s) id hs' trivial]
  obtain ⟨hst, -⟩ := query_start (ops := ops) (q := .name s) hs' trivial
  rw [hst, hq]
  simp only [Except.map, Except.bind, hc]
  have hn1 : (h.cell r).set k v "inherit_from" = none := by simp [Rec.set, hk'.symm, hi]
  have hn2 : (h.cell r).set k v "name" = some (.str s) := by simp [Rec.set, hk.symm, hname]
  have hkn : (recContents h' db).known ops ((h.cell r).set k v) = .ok (some ((h.cell r).set k v)) := by
    rw [known_contents]
    unfold HeapDb.known
    rw [hn2]
    simp only [hd, Except.map, Option.map_some, hc]
  have hm : ((h.cell r).set k v).over ((h.cell r).set k v) "inherit_from" = none := by simp [Rec.over, hn1]
  rw [FixtureDb.inheritance, hn1]
  simp only [hkn, hm, id]

/-- A task changes at most the time of start in the dictionary it is validated from. -/
theorem C110_task_partial (conv : Val → Val) (h : DictHeap) (a : ℕ) :
    (∀ x ≠ a, (taskCorrection conv h a).1.cell x = h.cell x) ∧ ∀ k ≠ "time_start", (taskCorrection conv h a).1.cell a k = h.cell a k := by
  unfold taskCorrection
  cases h.cell a "time_start" with
  | none => exact ⟨fun _ _ => rfl, fun _ _ => rfl⟩
  | some v => exact ⟨fun x hx => write_other h hx _, fun k hk => by simp [write_same, Rec.set, hk]⟩

/-- Not so for tasks: a time of start that is a number, a text or has no time zone is replaced in the dictionary of the caller. -/
theorem C110_task_violated (conv : Val → Val) (h : DictHeap) {a : ℕ} {v : Val} (hv : h.cell a "time_start" = some v) (hc : conv v ≠ v) :
    (taskCorrection conv h a).1.cell a ≠ h.cell a ∧ (taskCorrection conv h a).1.cell a "time_start" = some (conv v) := by
  have : (taskCorrection conv h a).1.cell a "time_start" = some (conv v) := by
    unfold taskCorrection; simp [hv, write_same, Rec.set]
  refine ⟨fun he => ?_, this⟩
  rw [he, hv] at this
  injection this with this
  exact hc this.symm

/-- Not so for users: two users validated from the same dictionary share the secret token, whatever the source of random texts gives. -/
theorem C110_user_violated (t1 t2 : String) (h : DictHeap) {a : ℕ} (hn : h.cell a "token" = none) :
    (userCorrection t1 h a).1.cell a ≠ h.cell a ∧
      (userCorrection t2 (userCorrection t1 h a).1 a).1.cell a "token" = some (.str ("shepherd_token_" ++ t1)) := by
  have h1 : (userCorrection t1 h a).1.cell a "token" = some (.str ("shepherd_token_" ++ t1)) := by
    unfold userCorrection; simp [hn, write_same, Rec.set]
  refine ⟨fun he => ?_, ?_⟩
  · rw [he, hn] at h1
    cases h1
  generalize (userCorrection t1 h a).1 = g at h1 ⊢
  unfold userCorrection
  rw [h1]
  exact h1

/-- A validator that writes into the dictionary it gets, and nowhere else. -/
def Local (correct : DictHeap → ℕ → DictHeap × ℕ) : Prop :=
  ∀ h a, (correct h a).2 = a ∧ (correct h a).1.next = h.next ∧ ∀ x ≠ a, (correct h a).1.cell x = h.cell x

theorem local_task (conv : Val → Val) : Local (taskCorrection conv) := fun h a => by
  unfold taskCorrection
  cases h.cell a "time_start" with
  | none => exact ⟨rfl, rfl, fun _ _ => rfl⟩
  | some v => exact ⟨rfl, rfl, fun x hx => write_other h hx _⟩

theorem local_user (t : String) : Local (userCorrection t) := fun h a => by
  unfold userCorrection
  cases h.cell a "token" with
  | none => exact ⟨rfl, rfl, fun x hx => write_other h hx _⟩
  | some v => exact ⟨rfl, rfl, fun _ _ => rfl⟩

/-- Made with keywords, tasks and users too leave every dictionary alone. -/
theorem C110_keywords {correct : DictHeap → ℕ → DictHeap × ℕ} (hl : Local correct) (h : DictHeap) (a : ℕ) :
    ∀ x < h.next, (byKeywords correct h a).1.cell x = h.cell x := by
  intro x hx
  unfold byKeywords
  rw [(hl _ _).2.2 x (by simp only [DictHeap.alloc]; omega)]
  exact (untouched_alloc h _).2 x hx

/-- Made with keywords, two users without token get a token each. -/
theorem C110_tokens (t1 t2 : String) (h : DictHeap) {a : ℕ} (ha : a < h.next) (hn : h.cell a "token" = none) :
    (byKeywords (userCorrection t1) h a).1.cell (byKeywords (userCorrection t1) h a).2 "token" = some (.str ("shepherd_token_" ++ t1)) ∧
      (byKeywords (userCorrection t2) (byKeywords (userCorrection t1) h a).1 a).1.cell (byKeywords (userCorrection t2) (byKeywords (userCorrection t1) h a).1 a).2 "token"
        = some (.str ("shepherd_token_" ++ t2)) := by
  have key : ∀ (t : String) (g : DictHeap), g.cell a "token" = none →
      (byKeywords (userCorrection t) g a).1.cell (byKeywords (userCorrection t) g a).2 "token" = some (.str ("shepherd_token_" ++ t)) := by
    intro t g hg
    unfold byKeywords userCorrection
    simp [DictHeap.alloc, hg, DictHeap.write, Rec.set]
  refine ⟨key t1 h hn, key t2 _ ?_⟩
  rw [C110_keywords (local_user t1) h a a ha]
  exact hn

/-! ## A concrete case: two sources in the data base, one inherits from the other -/

/-- Lower case of the few names used here. -/
def heapOps : StrOps := ⟨fun _ => "", fun s => s, fun _ => none⟩

def twoSources : DictHeap := ⟨fun x =>
  if x = 0 then fun k => if k = "name" then some (.str "direct") else if k = "id" then some (.int 1010) else if k = "c" then some (.int 5) else none
  else if x = 1 then fun k => if k = "name" then some (.str "bq") else if k = "id" then some (.int 1020) else if k = "inherit_from" then some (.str "direct") else none
  else if x = 2 then fun k => if k = "inherit_from" then some (.str "bq") else if k = "c" then some (.int 7) else none
  else fun _ => none, 3⟩
def twoDb : HeapDb := ⟨[("direct", 0), ("bq", 1)], [(.int 1010, 0), (.int 1020, 1)]⟩

example : Stored twoSources twoDb := by
  constructor <;> (intro p hp; simp [twoDb] at hp; rcases hp with rfl | rfl <;> decide)
example : Given twoSources (.values 2) := (by decide : 2 < 3)
example : (db : HeapDb) → db = twoDb → ∃ b, (db.create heapOps 10 twoSources (.values 2) (fun r => r.set "owner" (.str "unknown"))).2 = .ok b ∧
    (db.create heapOps 10 twoSources (.values 2) (fun r => r.set "owner" (.str "unknown"))).1.cell b "c" = some (.int 7) ∧
    (db.create heapOps 10 twoSources (.values 2) (fun r => r.set "owner" (.str "unknown"))).1.cell b "owner" = some (.str "unknown") := by
  rintro _ rfl
  exact ⟨_, by rfl, by decide +kernel, by decide +kernel⟩

end Verif.Props
