import Verif.Model.Client
import Verif.Props.Fixtures

/-!
# C85, C86: clients and the collection of fixtures
-/

namespace Verif.Props
open Verif.Py Verif.Model

/-! ## C85: the client that is asked, and for whom -/

theorem names_inv (ops : List ClientOp) : ∀ n : Names, n.package = 0 → n.clients[0]? = some .fixtures → (∀ e ∈ n.models, e.2 = 0) →
    let n' := ops.foldl Names.step n
    n'.package = 0 ∧ n'.clients[0]? = some .fixtures ∧ ∀ e ∈ n'.models, e.2 = 0 := by
  induction ops with
  | nil => intro n h1 h2 h3; exact ⟨h1, h2, h3⟩
  | cons op ops ih =>
    intro n h1 h2 h3
    rw [List.foldl_cons]
    apply ih
    · cases op <;> exact h1
    · cases op with
      | make k =>
        show (n.clients ++ [k])[0]? = _
        rw [List.getElem?_append_left]
        · exact h2
        · by_contra hc
          rw [List.getElem?_eq_none (by omega)] at h2
          cases h2
      | load m => exact h2
    · cases op with
      | make k => exact h3
      | load m =>
        intro e he
        have hval : (dictGet n.models m).getD n.package = 0 := by
          cases hg : dictGet n.models m with
          | none => exact h1
          | some i =>
            have := dictGet_mem hg
            obtain ⟨x, hx, rfl⟩ := List.mem_map.mp this
            exact h3 x hx
        have hs : ∀ d : List (String × ℕ), (∀ e ∈ d, e.2 = 0) → ∀ e ∈ dictSet d m 0, e.2 = 0 := by
          intro d
          induction d with
          | nil => intro _ e he; rw [dictSet, List.mem_singleton] at he; subst he; rfl
          | cons x d ihd =>
            intro h e he
            rw [dictSet] at he
            split_ifs at he
            · rcases List.mem_cons.mp he with rfl | he
              · rfl
              · exact h e (List.mem_cons_of_mem _ he)
            · rcases List.mem_cons.mp he with rfl | he
              · exact h _ (by simp)
              · exact ihd (fun e he => h e (List.mem_cons_of_mem _ he)) e he
        change e ∈ dictSet n.models m ((dictGet n.models m).getD n.package) at he
        rw [hval] at he
        exact hs n.models h3 e he

/-- Full statement, refuted: after connecting to a server, models are looked up there.  In every program, whatever clients it makes and whenever, all models ask the fixtures of the
first client. -/
theorem C85_online_violated (ops : List ClientOp) (m : String) : (ops.foldl Names.step .start).asked m = none ∨ (ops.foldl Names.step .start).asked m = some .fixtures := by
  obtain ⟨_, h2, h3⟩ := names_inv ops .start rfl rfl (by simp [Names.start])
  unfold Names.asked
  cases hg : dictGet (ops.foldl Names.step .start).models m with
  | none => exact Or.inl rfl
  | some i =>
    right
    have := dictGet_mem hg
    obtain ⟨x, hx, rfl⟩ := List.mem_map.mp this
    rw [h3 x hx]
    exact h2

example : let n := [ClientOp.load "gpio", .make .web, .load "mcu"].foldl Names.step .start
    n.asked "gpio" = some .fixtures ∧ n.asked "mcu" = some .fixtures ∧ n.clients[n.own]? = some .web := by decide

/-- Full statement, refuted: a client identifies itself with the token it was given.  No request depends on a token given as text. -/
theorem C85_token_violated (lower : String → String) (net : Net) (server : Option String) (s : String) :
    webConnect lower net server (.text s) = webConnect lower net server .nothing ∧ ∀ w, (webConnect lower net server (.text s)).2 = .ok w → w.token = "basic_public_access" := by
  refine ⟨rfl, fun w hw => ?_⟩
  have key : ∀ srv : String, (if srv = "" then (([] : List String), (Except.ok ⟨"basic_public_access", srv, none, none, true⟩ : Except PyErr WebClient))
      else match net.sessionKey (srv ++ "/session_key") with
      | .error e => ([srv ++ "/session_key"], .error e)
      | .ok key => match net.userData (srv ++ "/user?token=" ++ "basic_public_access") with
        | .error e => ([srv ++ "/session_key", srv ++ "/user?token=" ++ "basic_public_access"], .error e)
        | .ok user => ([srv ++ "/session_key", srv ++ "/user?token=" ++ "basic_public_access"], .ok ⟨"basic_public_access", srv, some user, some key, true⟩)).2 = .ok w →
      w.token = "basic_public_access" := by
    intro srv
    by_cases h : srv = ""
    · rw [if_pos h]; intro hw; cases hw; rfl
    · rw [if_neg h]
      cases net.sessionKey _ with
      | error e => intro hw; cases hw
      | ok key =>
        simp only
        cases net.userData _ with
        | error e => intro hw; cases hw
        | ok u => intro hw; cases hw; rfl
  exact key _ hw

/-- A token in a file is sent as it is, to a server whose address is in lower case. -/
theorem C85_token_file_partial (lower : String → String) (net : Net) (srv content key : String) (u : WebUser) (hlow : lower srv = srv) (hne : srv ≠ "")
    (hkey : net.sessionKey (srv ++ "/session_key") = .ok key) (huser : net.userData (srv ++ "/user?token=" ++ content) = .ok u) :
    webConnect lower net (some srv) (.path (some content)) = ([srv ++ "/session_key", srv ++ "/user?token=" ++ content], .ok ⟨content, srv, some u, some key, true⟩) := by
  unfold webConnect
  simp only [hlow]
  rw [if_neg hne, hkey]
  simp only
  rw [huser]

/-- Nothing is requested with a path that does not exist. -/
theorem C85_no_file (lower : String → String) (net : Net) (server : Option String) : webConnect lower net server (.path none) = ([], .error .fileNotFoundError) := rfl

/-- The whole address is changed to lower case, also the part that names a path on the server. -/
theorem C85_address_violated (lower : String → String) (net : Net) (srv : String) (token : TokenArg) (hne : lower srv ≠ "") (htok : token ≠ .path none) :
    (webConnect lower net (some srv) token).1.head? = some (lower srv ++ "/session_key") := by
  cases token with
  | path c =>
    cases c with
    | none => exact absurd rfl htok
    | some c =>
      unfold webConnect
      simp only
      rw [if_neg hne]
      cases net.sessionKey (lower srv ++ "/session_key") with
      | error e => rfl
      | ok k => simp only; cases net.userData _ <;> rfl
  | text s =>
    unfold webConnect
    simp only
    rw [if_neg hne]
    cases net.sessionKey (lower srv ++ "/session_key") with
    | error e => rfl
    | ok k => simp only; cases net.userData _ <;> rfl
  | nothing =>
    unfold webConnect
    simp only
    rw [if_neg hne]
    cases net.sessionKey (lower srv ++ "/session_key") with
    | error e => rfl
    | ok k => simp only; cases net.userData _ <;> rfl

/-- Owner and group that are given are kept, missing ones are those of the user; nothing else is changed. -/
theorem C85_owner (w : WebClient) (u : WebUser) (hu : w.user = some u) (values : Rec) : ∃ r, w.fillIn values = .ok r ∧
    r "owner" = (values "owner").or (some (.str u.name)) ∧ r "group" = (values "group").or (some (.str u.group)) ∧ ∀ k, k ≠ "owner" → k ≠ "group" → r k = values k := by
  unfold WebClient.fillIn
  simp only [hu]
  cases ho : values "owner" with
  | some x =>
    simp only
    cases hg : values "group" with
    | some y => exact ⟨values, rfl, by rw [ho]; rfl, by rw [hg]; rfl, fun _ _ _ => rfl⟩
    | none =>
      refine ⟨_, rfl, ?_, ?_, ?_⟩
      · simp [Rec.set, ho]
      · simp [Rec.set]
      · intro k _ h2; simp [Rec.set, h2]
  | none =>
    simp only
    have : (values.set "owner" (.str u.name)) "group" = values "group" := by simp [Rec.set]
    rw [this]
    cases hg : values "group" with
    | some y =>
      refine ⟨_, rfl, ?_, ?_, ?_⟩
      · simp [Rec.set]
      · simp [Rec.set, hg]
      · intro k h1 _; simp [Rec.set, h1]
    | none =>
      refine ⟨_, rfl, ?_, ?_, ?_⟩
      · simp [Rec.set]
      · simp [Rec.set]
      · intro k h1 h2; simp [Rec.set, h1, h2]

/-- Without a server the same holds with "unknown". -/
theorem C85_owner_offline (values : Rec) : fixFillIn values "owner" = (values "owner").or (some (.str "unknown")) ∧ fixFillIn values "group" = (values "group").or (some (.str "unknown")) ∧
    ∀ k, k ≠ "owner" → k ≠ "group" → fixFillIn values k = values k := by
  unfold fixFillIn
  cases ho : values "owner" with
  | some x =>
    simp only
    cases hg : values "group" with
    | some y => exact ⟨ho.trans rfl, hg.trans rfl, fun _ _ _ => rfl⟩
    | none => exact ⟨by simp [Rec.set, ho], by simp [Rec.set], fun k _ h2 => by simp [Rec.set, h2]⟩
  | none =>
    simp only
    have : (values.set "owner" (.str "unknown")) "group" = values "group" := by simp [Rec.set]
    rw [this]
    cases hg : values "group" with
    | some y => exact ⟨by simp [Rec.set], by simp [Rec.set, hg], fun k h1 _ => by simp [Rec.set, h1]⟩
    | none => exact ⟨by simp [Rec.set], by simp [Rec.set], fun k h1 h2 => by simp [Rec.set, h1, h2]⟩

/-- A client for an empty address counts as connected, but knows no user. -/
theorem C85_empty_violated (lower : String → String) (net : Net) (h : lower "" = "") (values : Rec) (ho : values "owner" = none) :
    ∃ w, webConnect lower net (some "") .nothing = ([], .ok w) ∧ w.connected = true ∧ w.fillIn values = .error .attributeError := by
  refine ⟨⟨"basic_public_access", "", none, none, true⟩, ?_, rfl, ?_⟩
  · unfold webConnect; simp only [h]; rfl
  · unfold WebClient.fillIn; simp only [ho]

/-- A server that knows everybody. -/
def openNet : Net := ⟨fun _ => .ok "key", fun _ => .ok ⟨"jane", "tud"⟩⟩

example : (webConnect id openNet (some "http://x/s") (.path (some "secret"))).1 = ["http://x/s/session_key", "http://x/s/user?token=secret"] ∧
    (webConnect id openNet (some "http://x/s") (.text "secret")).1[1]? = some "http://x/s/user?token=basic_public_access" := ⟨rfl, rfl⟩

/-! ## C86: the collection of fixtures -/

/-- The models in a file. -/
def modelsOf (f : Option (List FixEntry)) : List (String × Rec) := (f.getD []).filterMap (fun e => match e with | .model t r => some (t, r) | _ => none)

/-- Each component holds exactly the models of its type. -/
def Sorted (ops : StrOps) (c : Components) (h : List (String × Rec)) : Prop :=
  ∀ t, (dictGet c (ops.lower t) = none ∧ ∀ e ∈ h, ops.lower e.1 ≠ ops.lower t) ∨
    ∃ db, dictGet c (ops.lower t) = some db ∧ (∃ e ∈ h, ops.lower e.1 = ops.lower t) ∧ build ops t .empty h = .ok db

theorem insert_model_eq (ops : StrOps) (a b : String) (hab : ops.lower a = ops.lower b) (db : FixtureDb) (d : String) (r : Rec) : db.insert ops a d r = db.insert ops b d r := by
  unfold FixtureDb.insert; rw [hab]

theorem build_append (ops : StrOps) (t : String) : ∀ (h : List (String × Rec)) (db : FixtureDb) (e : String × Rec), build ops t db (h ++ [e]) =
    match build ops t db h with | .error x => .error x | .ok db' => db'.insert ops t e.1 e.2
  | [], db, (d, r) => by
    simp only [List.nil_append, build]
    cases db.insert ops t d r <;> rfl
  | (d', r') :: h, db, e => by
    rw [List.cons_append, build, build]
    cases db.insert ops t d' r' with
    | error x => rfl
    | ok db' => exact build_append ops t h db' e

theorem build_skip (ops : StrOps) (t : String) : ∀ (h : List (String × Rec)) (db : FixtureDb), (∀ e ∈ h, ops.lower e.1 ≠ ops.lower t) → build ops t db h = .ok db
  | [], _, _ => rfl
  | (d, r) :: h, db, hn => by
    have : db.insert ops t d r = .ok db := by unfold FixtureDb.insert; rw [if_pos (hn (d, r) (by simp))]
    rw [build, this]
    exact build_skip ops t h db (fun e he => hn e (List.mem_cons_of_mem _ he))

theorem sorted_insert (ops : StrOps) (hidem : ∀ s, ops.lower (ops.lower s) = ops.lower s) (c c' : Components) (h : List (String × Rec)) (d : String) (r : Rec) (hs : Sorted ops c h)
    (hi : insertModel ops c d r = (c', .ok ())) : Sorted ops c' (h ++ [(d, r)]) := by
  unfold insertModel at hi
  simp only at hi
  cases hins : ((dictGet c (ops.lower d)).getD .empty).insert ops (ops.lower d) d r with
  | error e => rw [hins] at hi; simp at hi
  | ok db' =>
    rw [hins] at hi
    simp only [Prod.mk.injEq, and_true] at hi
    subst hi
    intro t
    rw [dictGet_set, build_append]
    by_cases ht : ops.lower t = ops.lower d
    · right
      rw [if_pos ht]
      refine ⟨db', rfl, ⟨(d, r), by simp, ht.symm⟩, ?_⟩
      have hb : build ops t .empty h = .ok ((dictGet c (ops.lower d)).getD .empty) := by
        rcases hs t with ⟨h1, h2⟩ | ⟨db, h1, _, h3⟩
        · rw [← ht, h1]; exact build_skip ops t h _ h2
        · rw [← ht, h1, h3]; rfl
      rw [hb]
      simp only
      rw [← hins]
      exact insert_model_eq ops t (ops.lower d) (by rw [hidem, ht]) _ d r
    · rw [if_neg ht]
      rcases hs t with ⟨h1, h2⟩ | ⟨db, h1, ⟨e, he, hl⟩, h3⟩
      · refine Or.inl ⟨h1, fun e he => ?_⟩
        rcases List.mem_append.mp he with he | he
        · exact h2 e he
        · rw [List.mem_singleton] at he; subst he; exact fun x => ht x.symm
      · refine Or.inr ⟨db, h1, ⟨e, by simp [he], hl⟩, ?_⟩
        rw [h3]
        simp only
        unfold FixtureDb.insert
        rw [if_pos (fun x => ht x.symm)]

theorem sorted_entries (ops : StrOps) (hidem : ∀ s, ops.lower (ops.lower s) = ops.lower s) : ∀ (es : List FixEntry) (c c' : Components) (h : List (String × Rec)), Sorted ops c h →
    insertEntries ops c es = (c', .ok ()) → Sorted ops c' (h ++ modelsOf (some es))
  | [], c, c', h, hs, hi => by
    simp only [insertEntries, Prod.mk.injEq, and_true] at hi
    subst hi
    simpa [modelsOf] using hs
  | .noDict :: es, c, c', h, hs, hi => by
    rw [insertEntries] at hi
    simpa [modelsOf] using sorted_entries ops hidem es c c' h hs hi
  | .noWrapper :: es, c, c', h, hs, hi => by simp [insertEntries] at hi
  | .model d r :: es, c, c', h, hs, hi => by
    rw [insertEntries] at hi
    rcases hm : insertModel ops c d r with ⟨c1, e | ⟨⟨⟩⟩⟩
    · rw [hm] at hi; simp at hi
    · rw [hm] at hi
      have := sorted_entries ops hidem es c1 c' _ (sorted_insert ops hidem c c1 h d r hs hm) hi
      simpa [modelsOf] using this

theorem sorted_files (ops : StrOps) (hidem : ∀ s, ops.lower (ops.lower s) = ops.lower s) : ∀ (fs : List (Option (List FixEntry))) (c c' : Components) (h : List (String × Rec)), Sorted ops c h →
    insertFiles ops c fs = .ok c' → Sorted ops c' (h ++ fs.flatMap modelsOf)
  | [], c, c', h, hs, hi => by
    cases hi
    simpa using hs
  | f :: fs, c, c', h, hs, hi => by
    rw [insertFiles] at hi
    cases f with
    | none => simp [insertFile] at hi
    | some es =>
      rcases hm : insertEntries ops c es with ⟨c1, e | ⟨⟨⟩⟩⟩
      · simp [insertFile, hm] at hi
      · simp only [insertFile, hm] at hi
        have := sorted_files ops hidem fs c1 c' _ (sorted_entries ops hidem es c c1 h hs hm) hi
        simpa using this

/-- The files behind a path. -/
def FixPath.files : FixPath → List (Option (List FixEntry))
  | .file f => [f]
  | .dir fs => fs
  | .missing => []

/-- What a path holds, as far as it can be loaded. -/
def FixPath.Loads (ops : StrOps) (p : FixPath) (c : Components) : Prop := p ≠ .missing ∧ insertFiles ops [] (FixPath.files p) = .ok c

/-- After loading the files of a path, a data type is known (in any letter case) exactly if there is a model of it, and lookups among its models yield the one that came last, as if
there were no models of other types. -/
theorem C86_types (ops : StrOps) (hidem : ∀ s, ops.lower (ops.lower s) = ops.lower s) (p : FixPath) (c : Components) (hl : FixPath.Loads ops p c) (t : String) :
    (getComponent ops c t = .error .valueError ∧ ∀ e ∈ (FixPath.files p).flatMap modelsOf, ops.lower e.1 ≠ ops.lower t) ∨
    ∃ db, getComponent ops c t = .ok db ∧ (∃ e ∈ (FixPath.files p).flatMap modelsOf, ops.lower e.1 = ops.lower t) ∧
      (∀ k, db.queryName ops k = match latest ops t (isNamed ops k) none ((FixPath.files p).flatMap modelsOf) with | some r => .ok r | none => .error .valueError) ∧
      ∀ n, db.queryId n = match latest ops t (hasId (.int n)) none ((FixPath.files p).flatMap modelsOf) with | some r => .ok r | none => .error .valueError := by
  have hs := sorted_files ops hidem (FixPath.files p) [] c [] (fun t => Or.inl ⟨rfl, by simp⟩) hl.2
  rw [List.nil_append] at hs
  unfold getComponent
  rcases hs t with ⟨h1, h2⟩ | ⟨db, h1, h2, h3⟩
  · exact Or.inl ⟨by rw [h1], h2⟩
  · exact Or.inr ⟨db, by rw [h1], h2, C49_latest ops t _ db h3⟩

/-- Loading without a cache, with `reset`, or on an observer: what the path holds. -/
theorem C86_fresh (ops : StrOps) (sheep : Bool) (cache : Cache) (now : ℤ) (reset : Bool) (p : FixPath) (h : cache = none ∨ reset = true ∨ sheep = true) (c : Components) :
    (loadFixtures ops sheep cache now reset p).1 = .ok c ↔ FixPath.Loads ops p c := by
  have key : ∀ x : Except PyErr Components × Cache, (match p with
      | .missing => (.error .valueError, cache)
      | .file f => match insertFiles ops [] [f] with
        | .error e => (.error e, cache)
        | .ok c => (.ok c, if c.length < 1 then cache else if sheep then some (c, now) else cache)
      | .dir fs => match insertFiles ops [] fs with
        | .error e => (.error e, cache)
        | .ok c => (.ok c, if c.length < 1 then cache else if sheep then some (c, now) else cache)) = x → (x.1 = .ok c ↔ FixPath.Loads ops p c) := by
    intro x hx
    unfold FixPath.Loads
    cases p with
    | missing => subst hx; simp
    | file f =>
      simp only [FixPath.files]
      cases hi : insertFiles ops [] [f] with
      | error e => simp only [hi] at hx; subst hx; simp
      | ok c' => simp only [hi] at hx; subst hx; simp
    | dir fs =>
      simp only [FixPath.files]
      cases hi : insertFiles ops [] fs with
      | error e => simp only [hi] at hx; subst hx; simp
      | ok c' => simp only [hi] at hx; subst hx; simp
  unfold loadFixtures
  simp only
  cases cache with
  | none => exact key _ rfl
  | some e =>
    obtain ⟨c0, mtime⟩ := e
    simp only
    rw [if_neg (by
      rcases h with h | h | h
      · cases h
      · simp [h]
      · simp [h])]
    exact key _ rfl

/-- What a machine does over time: collections that are made, one after the other. -/
def loadAll (ops : StrOps) (sheep : Bool) : Cache → List (ℤ × Bool × FixPath) → List (Except PyErr Components)
  | _, [] => []
  | cache, (now, reset, p) :: rest =>
    let r := loadFixtures ops sheep cache now reset p
    r.1 :: loadAll ops sheep r.2 rest

theorem cache_absent (ops : StrOps) (now : ℤ) (reset : Bool) (p : FixPath) : (loadFixtures ops false none now reset p).2 = none := by
  unfold loadFixtures
  cases p with
  | missing => rfl
  | file f =>
    simp only
    cases insertFiles ops [] [f] with
    | error e => rfl
    | ok c => simp
  | dir fs =>
    simp only
    cases insertFiles ops [] fs with
    | error e => rfl
    | ok c => simp

/-- On a machine without a cache from elsewhere every collection is read from its files, in every history, so that changes of the files are seen at once: observers write a cache but
do not read it, other machines read one but do not write it. -/
theorem C86_history (ops : StrOps) (sheep : Bool) : ∀ (cache : Cache) (hist : List (ℤ × Bool × FixPath)), sheep = true ∨ cache = none →
    List.Forall₂ (fun r e => ∀ c, r = .ok c ↔ FixPath.Loads ops e.2.2 c) (loadAll ops sheep cache hist) hist
  | _, [], _ => List.Forall₂.nil
  | cache, (now, reset, p) :: rest, h => by
    rw [loadAll]
    refine List.Forall₂.cons (fun c => C86_fresh ops sheep cache now reset p (by tauto) c) (C86_history ops sheep _ rest ?_)
    rcases h with h | h
    · exact Or.inl h
    · subst h
      cases sheep with
      | true => exact Or.inl rfl
      | false => exact Or.inr (cache_absent ops now reset p)

/-- A cache that was copied to a machine (e.g. by a shared home directory) replaces every path for a day. -/
theorem C86_cache_violated (ops : StrOps) (c : Components) (mtime now : ℤ) (h : now - 24 * 3600 * 10 ^ 6 ≤ mtime) (p : FixPath) :
    loadFixtures ops false (some (c, mtime)) now false p = (.ok c, some (c, mtime)) := by
  unfold loadFixtures
  simp only
  rw [if_pos (by simpa using h)]

/-- After a day it is ignored. -/
theorem C86_expired (ops : StrOps) (c : Components) (mtime now : ℤ) (h : mtime < now - 24 * 3600 * 10 ^ 6) (p : FixPath) (c' : Components) :
    (loadFixtures ops false (some (c, mtime)) now false p).1 = .ok c' ↔ FixPath.Loads ops p c' := by
  rw [← C86_fresh ops false none now false p (Or.inl rfl) c']
  unfold loadFixtures
  simp only
  rw [if_neg (by simpa using h)]
  cases p with
  | missing => rfl
  | file f =>
    simp only
    cases insertFiles ops [] [f] with
    | error e => rfl
    | ok c => rfl
  | dir fs =>
    simp only
    cases insertFiles ops [] fs with
    | error e => rfl
    | ok c => rfl

/-- Strings as they are, with one name that has two letter cases. -/
example : (∀ s, plainOps.lower (plainOps.lower s) = plainOps.lower s) ∧
    ∃ c, FixPath.Loads plainOps (.dir [some [.noDict, .model "Base" (fun k => if k = "name" then some (.str "a") else if k = "id" then some (.int 1) else none)],
      some [.model "base" (fun k => if k = "name" then some (.str "a") else if k = "id" then some (.int 2) else none)]]) c ∧
      ∃ db, getComponent plainOps c "Base" = .ok db ∧ field (db.queryName plainOps "a") "id" = some (.int 2) ∧ field (db.queryId 1) "name" = some (.str "a") := by
  refine ⟨fun s => ?_, _, ⟨by simp, rfl⟩, _, rfl, rfl, rfl⟩
  simp only [plainOps]
  by_cases h : s = "Base"
  · simp [h]
  · simp [h]

end Verif.Props
